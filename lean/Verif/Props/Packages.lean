import Verif.Lemmas.Packages
import Verif.Lemmas.Sample
/-! # Properties C58, C60, C61, C66: SRC_URI entries and package names -/
set_option linter.unusedSectionVars false
namespace Oelint
open Spec

section
variable [Uni]

/-! ## C58 -/

/-- C58: what `GetScrComponents` does for every text: after replacing the known mirrors one after the other, the fields behind the
first `;` are the options; in each field the key ends at the first `=` and the value at the second one; fields without `=` are
dropped; of several fields with one key the last wins. `scheme`, host and path are those of `urlparse`, `src` ends at the first `;`.
All parts are empty if `urlparse` raises. -/
theorem C58_source_components (W : World) (s : Stash) (mirrors : List (Str × Str)) (d : KV)
    (hd : mirrorsKnown s.consts = .ok (.dict d)) (hm : d.toList = mirrors.map (fun m => (m.1, J.str m.2)))
    (hne : ∀ m ∈ mirrors, m.1 ≠ []) (string raw : Str) (hraw : Mirrored mirrors string raw) :
    (W.urlparse raw = none → getScrComponents W s string = .ok ⟨[], [], []⟩) ∧
    ∀ scheme host path url fields, W.urlparse raw = some (scheme, host, path) → Pieces ';' raw (url :: fields) →
      ∃ c, getScrComponents W s string = .ok c ∧ c.scheme = scheme ∧
        c.src = (hostAndPath host path).takeWhile (fun x => x != ';') ∧
        (c.options.map (·.1)).Nodup ∧ ∀ k v, dget k c.options = some v ↔ LastOption fields k v := by
  have hk := (withKnownMirrors_ok hd hm hne).2 hraw
  refine ⟨getScr_none hk, fun scheme host path url fields hu hp => ⟨_, getScr_some hk hu hp, rfl, rfl, parseOptions_nodup _,
    fun k v => dget_parseOptions⟩⟩

/-- C58: `GetScrComponents` raises for no text, unless the known mirrors are not a dictionary of texts; then it raises for every text -/
theorem C58_raises (W : World) (s : Stash) (string : Str) :
    (∃ c, getScrComponents W s string = .ok c) ↔
    ∃ d, mirrorsKnown s.consts = .ok (.dict d) ∧ ∀ kv ∈ d.toList, ∃ t, kv.2 = .str t := by
  have hr : ∀ (l : List (Str × J)) (x : Str), (∃ r, replaceMirrors l x = .ok r) ↔ ∀ kv ∈ l, ∃ t, kv.2 = .str t := by
    intro l
    induction l with
    | nil => intro x; simp [replaceMirrors]
    | cons kv l ih =>
      intro x
      obtain ⟨k, v⟩ := kv
      cases v with
      | str t => simp [replaceMirrors, ih]
      | list l => simp [replaceMirrors]
      | dict d => simp [replaceMirrors]
  have hw : (∃ c, getScrComponents W s string = .ok c) ↔ ∃ r, withKnownMirrors s string = .ok r := by
    unfold getScrComponents
    cases withKnownMirrors s string with
    | error e => simp
    | ok r =>
      simp only [Except.ok.injEq, exists_eq', iff_true]
      cases W.urlparse r <;> exact ⟨_, rfl⟩
  rw [hw]
  unfold withKnownMirrors
  cases mirrorsKnown s.consts with
  | error e => simp
  | ok j =>
    cases j with
    | dict d => simp [hr]
    | list l => simp
    | str t => simp

/-- the replacement of mirrors is a function: there is exactly one result -/
theorem C58_mirrors_functional (mirrors : List (Str × Str)) (hne : ∀ m ∈ mirrors, m.1 ≠ []) (string : Str) :
    ∃ raw, Mirrored mirrors string raw ∧ ∀ raw', Mirrored mirrors string raw' → raw' = raw := by
  have : ∃ raw, replaceMirrors (mirrors.map (fun m => (m.1, J.str m.2))) string = .ok raw := by
    clear hne
    induction mirrors generalizing string with
    | nil => exact ⟨_, rfl⟩
    | cons m ms ih => exact ih _
  obtain ⟨raw, h⟩ := this
  refine ⟨raw, (replaceMirrors_iff hne).2 h, fun raw' h' => ?_⟩
  have := (replaceMirrors_iff hne).1 h'
  rw [h] at this
  cases this
  rfl

/-- C58, partial: options read back as written, the last of a key wins, if no key and no value contains `=` (nor `;`). Missing:
values with `=`, for which the property is false. -/
theorem C58_options_read_back_partial (W : World) (s : Stash) (mirrors : List (Str × Str)) (d : KV)
    (hd : mirrorsKnown s.consts = .ok (.dict d)) (hm : d.toList = mirrors.map (fun m => (m.1, J.str m.2)))
    (hne : ∀ m ∈ mirrors, m.1 ≠ []) (string url : Str) (opts : List (Str × Str))
    (hraw : Mirrored mirrors string (withOptions url opts)) (hu : ';' ∉ url)
    (ho : ∀ o ∈ opts, ';' ∉ o.1 ∧ ';' ∉ o.2 ∧ '=' ∉ o.1 ∧ '=' ∉ o.2)
    (hp : W.urlparse (withOptions url opts) ≠ none) :
    ∃ c, getScrComponents W s string = .ok c ∧ ';' ∉ c.src ∧ ∀ k v, dget k c.options = some v ↔ LastValue opts k v := by
  cases hpp : W.urlparse (withOptions url opts) with
  | none => exact absurd hpp hp
  | some r =>
    obtain ⟨scheme, host, path⟩ := r
    obtain ⟨c, h1, -, h2, -, h3⟩ := (C58_source_components W s mirrors d hd hm hne string _ hraw).2 scheme host path _ _ hpp
      (pieces_withOptions hu (fun o h => ⟨(ho o h).1, (ho o h).2.1⟩))
    refine ⟨c, h1, ?_, fun k v => (h3 k v).trans (lastOption_written (fun o h => ⟨(ho o h).2.2.1, (ho o h).2.2.2⟩))⟩
    rw [h2]
    intro hmem
    have := List.mem_takeWhile_imp hmem
    simp at this

/-! ## C60 -/

/-- C60: `GetValidPackageNames` returns exactly the standard packages in both spellings of the recipe name and the words of
`PACKAGES` and `PACKAGE_BEFORE_PN` of the file and the linked files, after expansion except for `${PN}`, which is replaced by both
spellings (by nothing with `strippn`). It succeeds iff all these expansions do. -/
theorem C60_package_names (W : World) (s : Stash) (file : Str) (hf : file ≠ []) (strippn : Bool) :
    ((∃ res, getValidPackageNames W s file strippn = .ok res) ↔
      ∀ name ∈ [c!"PACKAGES", c!"PACKAGE_BEFORE_PN"], ∀ v, Assigned s file name v →
        ∃ t, expandTermS W s file [c!"PN"] (varValueStripped v) = .ok t) ∧
    ∀ res, getValidPackageNames W s file strippn = .ok res → res.Nodup ∧ ∀ p, p ∈ res ↔
      ∃ pn ∈ [c!"${PN}", guessRecipeName file], (∃ e ∈ stdEndings, p = pn ++ e) ∨
        ∃ name ∈ [c!"PACKAGES", c!"PACKAGE_BEFORE_PN"], ∃ v, Assigned s file name v ∧
          ∃ t ws w, expandTermS W s file [c!"PN"] (varValueStripped v) = .ok t ∧ Words Blank t ws ∧ w ∈ ws ∧
            Replaced c!"${PN}" (if strippn then [] else pn) w p := by
  have hv : ∀ v, v ∈ varsOf (getItemsFor W s (varFilter file c!"PACKAGES") ++ getItemsFor W s (varFilter file c!"PACKAGE_BEFORE_PN")) ↔
      ∃ name ∈ [c!"PACKAGES", c!"PACKAGE_BEFORE_PN"], Assigned s file name v := by
    intro v
    rw [varsOf_append, List.mem_append, mem_varsOf hf (by simp), mem_varsOf hf (by simp)]
    simp
  have hw : ∀ pn v p, (∃ ws, packageWords W s file v = .ok ws ∧ ∃ w ∈ ws, p = replaceAll c!"${PN}" (if strippn then [] else pn) w) ↔
      ∃ t ws w, expandTermS W s file [c!"PN"] (varValueStripped v) = .ok t ∧ Words Blank t ws ∧ w ∈ ws ∧
            Replaced c!"${PN}" (if strippn then [] else pn) w p := by
    intro pn v p
    constructor
    · rintro ⟨ws, h, w, h1, h2⟩
      obtain ⟨t, ht, rfl⟩ := packageWords_ok.1 h
      exact ⟨t, _, w, ht, words_stashSafe t, h1, replaced_pn_iff.2 h2⟩
    · rintro ⟨t, ws, w, ht, hws, h1, h2⟩
      have := words_unique hws (words_stashSafe t)
      exact ⟨ws, packageWords_ok.2 ⟨t, ht, this⟩, w, h1, replaced_pn_iff.1 h2⟩
  constructor
  · constructor
    · rintro ⟨res, h⟩ name hn v ha
      unfold getValidPackageNames at h
      simp only at h
      split at h
      · cases h
      · rename_i r hr
        obtain ⟨ws, h1⟩ := (packageLoop_ok hr).2.1 v ((hv v).2 ⟨name, hn, ha⟩)
        obtain ⟨t, ht, -⟩ := packageWords_ok.1 h1
        exact ⟨t, ht⟩
    · intro h
      have htot : ∀ v ∈ varsOf (getItemsFor W s (varFilter file c!"PACKAGES") ++ getItemsFor W s (varFilter file c!"PACKAGE_BEFORE_PN")),
          ∃ ws, packageWords W s file v = .ok ws := by
        intro v hmem
        obtain ⟨name, hn, ha⟩ := (hv v).1 hmem
        obtain ⟨t, ht⟩ := h name hn v ha
        exact ⟨_, packageWords_ok.2 ⟨t, ht, rfl⟩⟩
      unfold getValidPackageNames
      obtain ⟨r, hr⟩ := packageLoop_total (pn := c!"${PN}") (strippn := strippn) (res := (stdPackages c!"${PN}").foldl sadd []) htot
      simp only [hr]
      exact packageLoop_total htot
  · intro res h
    unfold getValidPackageNames at h
    simp only at h
    split at h
    · cases h
    · rename_i r hr
      obtain ⟨r1, -, r3⟩ := packageLoop_ok hr
      obtain ⟨o1, -, o3⟩ := packageLoop_ok h
      have hstd : ∀ pn l p, p ∈ (stdPackages pn).foldl sadd l ↔ p ∈ l ∨ ∃ e ∈ stdEndings, p = pn ++ e := by
        intro pn l p
        have := mem_foldl_sadd (f := id) (xs := stdPackages pn) (l := l) (y := p)
        rw [← mem_stdPackages]
        simpa using this
      have hnd : ∀ {l : List Str}, l.Nodup → ∀ pn, ((stdPackages pn).foldl sadd l).Nodup := fun hl pn => nodup_foldl_sadd (f := id) hl
      refine ⟨o3 (hnd (r3 (hnd List.nodup_nil _)) _), fun p => ?_⟩
      rw [o1, hstd, r1, hstd]
      simp only [hw, hv]
      constructor
      · rintro (((((h | h) | ⟨v, ⟨name, hn, ha⟩, h⟩) | h)) | ⟨v, ⟨name, hn, ha⟩, h⟩)
        · simp at h
        · exact ⟨_, List.mem_cons_self, Or.inl h⟩
        · exact ⟨_, List.mem_cons_self, Or.inr ⟨name, hn, v, ha, h⟩⟩
        · exact ⟨_, List.mem_cons_of_mem _ List.mem_cons_self, Or.inl h⟩
        · exact ⟨_, List.mem_cons_of_mem _ List.mem_cons_self, Or.inr ⟨name, hn, v, ha, h⟩⟩
      · rintro ⟨pn, hpn, h⟩
        rcases List.mem_cons.1 hpn with rfl | hpn
        · rcases h with h | ⟨name, hn, v, ha, h⟩
          · exact Or.inl (Or.inl (Or.inl (Or.inr h)))
          · exact Or.inl (Or.inl (Or.inr ⟨v, ⟨name, hn, ha⟩, h⟩))
        · rw [List.mem_singleton] at hpn
          subst hpn
          rcases h with h | ⟨name, hn, v, ha, h⟩
          · exact Or.inl (Or.inr h)
          · exact Or.inr ⟨v, ⟨name, hn, ha⟩, h⟩

/-! ## C66 -/

/-- C66: `GetValidNamedResources` returns exactly the recipe name and the values of the option `name` of the words of `SRC_URI` of the
file and the linked files, with `${PN}` replaced by the recipe name. -/
theorem C66_named_resources (W : World) (s : Stash) (file : Str) (hf : file ≠ []) (res : List Str)
    (h : getValidNamedResources W s file = .ok res) (p : Str) :
    p ∈ res ↔ p = guessRecipeName file ∨ ∃ v, Assigned s file c!"SRC_URI" v ∧ ∃ ws w c n, Words Blank (varValueStripped v) ws ∧ w ∈ ws ∧
      getScrComponents W s w = .ok c ∧ dget c!"name" c.options = some n ∧ Replaced c!"${PN}" (guessRecipeName file) n p := by
  unfold getValidNamedResources at h
  simp only at h
  rw [(namedLoop_ok h).1]
  simp only [List.mem_singleton, replaced_pn_iff]
  refine or_congr Iff.rfl ?_
  constructor
  · rintro ⟨w, hw, c, n, h1, h2, h3⟩
    rw [List.mem_flatten] at hw
    obtain ⟨l, hl, hw⟩ := hw
    obtain ⟨v, hv, rfl⟩ := List.mem_map.1 hl
    exact ⟨v, (mem_varsOf hf (by simp)).1 hv, _, w, c, n, words_stashSafe _, hw, h1, h2, h3⟩
  · rintro ⟨v, hv, ws, w, c, n, hws, hw, h1, h2, h3⟩
    refine ⟨w, List.mem_flatten.2 ⟨_, List.mem_map.2 ⟨v, (mem_varsOf hf (by simp)).2 hv, rfl⟩, ?_⟩, c, n, h1, h2, h3⟩
    rw [← words_unique hws (words_stashSafe _)]
    exact hw

/-! ## C61 -/

/-- `GetPackagesDynamic` returns exactly what stands between the separators of the expanded values of `PACKAGES_DYNAMIC` -/
theorem C61_patterns (W : World) (s : Stash) (file : Str) (hf : file ≠ []) (res : List Str)
    (h : getPackagesDynamic W s file = .ok res) (p : Str) :
    p ∈ res ↔ ∃ v t ps, Assigned s file c!"PACKAGES_DYNAMIC" v ∧ expandTerm W s file (varValueStripped v) = .ok t ∧
      SplitAt Blank t ps ∧ p ∈ ps := by
  unfold getPackagesDynamic at h
  rw [(dynLoop_ok h).1]
  simp only [List.not_mem_nil, false_or]
  constructor
  · rintro ⟨v, hv, t, ht, hp⟩
    rw [stashSafeLineSplit_eq] at hp
    exact ⟨v, t, _, (mem_varsOf hf (by simp)).1 hv, ht, splitAt_splitBy t, hp⟩
  · rintro ⟨v, t, ps, hv, ht, hs, hp⟩
    refine ⟨v, (mem_varsOf hf (by simp)).2 hv, t, ht, ?_⟩
    rw [stashSafeLineSplit_eq, ← splitAt_unique hs]
    exact hp

/-- C61, partial: the answer is yes only if a pattern between the separators of an expanded value of `PACKAGES_DYNAMIC` matches the
expanded name, and no only if none does. The pattern is a word if the value has no empty pieces; missing: otherwise the empty pattern
counts and matches every name, for which the property is false. -/
theorem C61_dynamic_packages_partial (W : World) (s : Stash) (file name e : Str) (hf : file ≠ []) (b : Bool)
    (h : isDynamicPackage W s file name = .ok b) (he : expandTerm W s file name = .ok e) :
    (b = true ↔ ∃ v t ps p, Assigned s file c!"PACKAGES_DYNAMIC" v ∧ expandTerm W s file (varValueStripped v) = .ok t ∧
      SplitAt Blank t ps ∧ p ∈ ps ∧ ∃ r, compile p = some r ∧ (reMatch r.re e).isSome) ∧
    (b = true → (∀ v t ps, Assigned s file c!"PACKAGES_DYNAMIC" v → expandTerm W s file (varValueStripped v) = .ok t →
        SplitAt Blank t ps → [] ∉ ps) →
      ∃ v t ws p, Assigned s file c!"PACKAGES_DYNAMIC" v ∧ expandTerm W s file (varValueStripped v) = .ok t ∧
        Words Blank t ws ∧ p ∈ ws ∧ ∃ r, compile p = some r ∧ (reMatch r.re e).isSome) := by
  have hmd : ∀ p x, matchDyn p e = .ok x ↔ ∃ r, compile p = some r ∧ (reMatch r.re e).isSome = x := by
    intro p x
    unfold matchDyn
    cases compile p <;> simp
  unfold isDynamicPackage at h
  rw [he] at h
  simp only at h
  cases hp : getPackagesDynamic W s file with
  | error er => rw [hp] at h; cases h
  | ok pats =>
    rw [hp] at h
    obtain ⟨h1, h2⟩ := anyMatch_ok h
    have hmem : ∀ p, p ∈ W.strOrder pats ↔ p ∈ pats := fun p => (W.strOrder_perm pats).mem_iff
    have key : b = true ↔ ∃ v t ps p, Assigned s file c!"PACKAGES_DYNAMIC" v ∧ expandTerm W s file (varValueStripped v) = .ok t ∧
        SplitAt Blank t ps ∧ p ∈ ps ∧ ∃ r, compile p = some r ∧ (reMatch r.re e).isSome := by
      constructor
      · intro hb
        obtain ⟨p, hpm, hpt⟩ := h1 hb
        obtain ⟨v, t, ps, ha, ht, hs, hps⟩ := (C61_patterns W s file hf pats hp p).1 ((hmem p).1 hpm)
        exact ⟨v, t, ps, p, ha, ht, hs, hps, (hmd _ _).1 hpt⟩
      · rintro ⟨v, t, ps, p, ha, ht, hs, hps, hr⟩
        by_contra hb
        have hb : b = false := by simpa using hb
        have := h2 hb p ((hmem p).2 ((C61_patterns W s file hf pats hp p).2 ⟨v, t, ps, ha, ht, hs, hps⟩))
        rw [(hmd p true).2 hr] at this
        cases this
    refine ⟨key, fun hb hno => ?_⟩
    obtain ⟨v, t, ps, p, ha, ht, hs, hps, hr⟩ := key.1 hb
    refine ⟨v, t, _, p, ha, ht, words_splitAt hs, List.mem_filter.2 ⟨hps, ?_⟩, hr⟩
    have : p ≠ [] := fun h0 => hno v t ps ha ht hs (h0 ▸ hps)
    cases p with
    | nil => exact absurd rfl this
    | cons c r => rfl

/-! ## when C61 and C66 raise -/

theorem dynLoop_total {W : World} {s : Stash} {file : Str} {vs : List VarData} :
    ∀ res, (∃ out, dynLoop W s file vs res = .ok out) ↔ ∀ v ∈ vs, ∃ t, expandTerm W s file (varValueStripped v) = .ok t := by
  induction vs with
  | nil => exact fun res => ⟨fun _ => by simp, fun _ => ⟨res, rfl⟩⟩
  | cons v vs ih =>
    intro res
    rw [dynLoop]
    cases h : expandTerm W s file (varValueStripped v) with
    | error e => simp [h]
    | ok t => simp [h, ih]

/-- C61: `GetPackagesDynamic` raises exactly if the expansion of a value of `PACKAGES_DYNAMIC` raises -/
theorem C61_raises (W : World) (s : Stash) (file : Str) (hf : file ≠ []) :
    (∃ res, getPackagesDynamic W s file = .ok res) ↔ ∀ v, Assigned s file c!"PACKAGES_DYNAMIC" v → ∃ t, expandTerm W s file (varValueStripped v) = .ok t := by
  unfold getPackagesDynamic
  rw [dynLoop_total]
  exact forall_congr' fun v => by rw [mem_varsOf hf (by simp)]

/-- C61: `IsDynamicPackage` answers if the name and the values of `PACKAGES_DYNAMIC` can be expanded and what stands between the separators are regular expressions -/
theorem C61_answers (W : World) (s : Stash) (file name e : Str) (hf : file ≠ []) (he : expandTerm W s file name = .ok e)
    (hv : ∀ v, Assigned s file c!"PACKAGES_DYNAMIC" v → ∃ t ps, expandTerm W s file (varValueStripped v) = .ok t ∧ SplitAt Blank t ps ∧ ∀ p ∈ ps, ∃ r, compile p = some r) :
    ∃ b, isDynamicPackage W s file name = .ok b := by
  obtain ⟨pats, hp⟩ := (C61_raises W s file hf).2 (fun v h => (hv v h).imp fun t ⟨_, h, _⟩ => h)
  have hc : ∀ p ∈ W.strOrder pats, ∃ r, compile p = some r := by
    intro p hm
    obtain ⟨v, t, ps, h1, h2, h3, h4⟩ := (C61_patterns W s file hf pats hp p).1 ((W.strOrder_perm pats).mem_iff.1 hm)
    obtain ⟨t', ps', h5, h6, h7⟩ := hv v h1
    rw [h2] at h5
    cases h5
    rw [(splitAt_unique h3).trans (splitAt_unique h6).symm] at h4
    exact h7 p h4
  unfold isDynamicPackage
  rw [he, hp]
  dsimp only
  generalize W.strOrder pats = l at hc
  clear hp
  induction l with
  | nil => exact ⟨_, rfl⟩
  | cons p l ih =>
    obtain ⟨r, hr⟩ := hc p (by simp)
    rw [anyMatch]
    unfold matchDyn
    rw [hr]
    dsimp only
    cases (reMatch r.re e).isSome with
    | true => exact ⟨_, rfl⟩
    | false => exact ih fun q hq => hc q (List.mem_cons_of_mem _ hq)

theorem namedLoop_total {W : World} {s : Stash} {pn : Str} {ws : List Str} : ∀ res, (∃ out, namedLoop W s pn ws res = .ok out) ↔ ∀ w ∈ ws, ∃ c, getScrComponents W s w = .ok c := by
  induction ws with
  | nil => exact fun res => ⟨fun _ => by simp, fun _ => ⟨res, rfl⟩⟩
  | cons w ws ih =>
    intro res
    rw [namedLoop]
    cases h : getScrComponents W s w with
    | error e => simp [h]
    | ok c =>
      dsimp only
      cases dget c!"name" c.options <;> simp [h, ih]

/-- C66: `GetValidNamedResources` raises exactly if `SRC_URI` has a word but the known mirrors are not a dictionary of texts -/
theorem C66_raises (W : World) (s : Stash) (file : Str) (hf : file ≠ []) :
    (∃ res, getValidNamedResources W s file = .ok res) ↔
    ((∃ d, mirrorsKnown s.consts = .ok (.dict d) ∧ ∀ kv ∈ d.toList, ∃ t, kv.2 = .str t) ∨ ∀ v, Assigned s file c!"SRC_URI" v → Words Blank (varValueStripped v) []) := by
  unfold getValidNamedResources
  simp only
  rw [namedLoop_total]
  simp only [C58_raises]
  constructor
  · intro h
    by_cases hm : ∃ d, mirrorsKnown s.consts = .ok (.dict d) ∧ ∀ kv ∈ d.toList, ∃ t, kv.2 = .str t
    · exact .inl hm
    · refine .inr fun v hv => ?_
      have := words_stashSafe (varValueStripped v)
      cases hl : (stashSafeLineSplit (varValueStripped v)).filter (fun x => !x.isEmpty) with
      | nil => rwa [hl] at this
      | cons w ws => exact absurd (h w (List.mem_flatten.2 ⟨_, List.mem_map.2 ⟨v, (mem_varsOf hf (by simp)).2 hv, rfl⟩, by rw [hl]; simp⟩)) hm
  · rintro (h | h) w hw
    · exact h
    · rw [List.mem_flatten] at hw
      obtain ⟨l, hl, hw⟩ := hw
      obtain ⟨v, hv, rfl⟩ := List.mem_map.1 hl
      rw [← words_unique (h v ((mem_varsOf hf (by simp)).1 hv)) (words_stashSafe _)] at hw
      cases hw
end

/-! ## counterexamples, and the hypotheses can be met -/

attribute [local instance] Sample.asciiUni

/-- C58 is false for a value with `=`: `git://h/p;name=a=b` gives the name `a` -/
theorem C58_false : ¬ ∀ (W : World) (s : Stash) (d : KV) (url : Str) (opts : List (Str × Str)),
    mirrorsKnown s.consts = .ok (.dict d) → d.toList = [] → ';' ∉ url → (∀ o ∈ opts, ';' ∉ o.1 ∧ ';' ∉ o.2 ∧ '=' ∉ o.1) →
    W.urlparse (withOptions url opts) ≠ none →
    ∃ c, getScrComponents W s (withOptions url opts) = .ok c ∧ ∀ k v, dget k c.options = some v ↔ LastValue opts k v := by
  intro h
  obtain ⟨c, h1, h2⟩ := h (Sample.world []) Sample.stash .nil c!"git://h/p" [(c!"name", c!"a=b")] rfl rfl (by decide) (by decide)
    (by simp [Sample.world])
  have hc : getScrComponents (Sample.world []) Sample.stash (withOptions c!"git://h/p" [(c!"name", c!"a=b")]) =
      .ok ⟨[], c!"/git://h/p", [(c!"name", c!"a")]⟩ := by decide +kernel
  rw [hc] at h1
  cases h1
  have := (h2 c!"name" c!"a=b").2 ⟨[], [], rfl, by simp⟩
  revert this
  decide

/-- the hypotheses of C58 hold with a mirror, and the result is not trivial -/
example : (∃ c, getScrComponents (Sample.world []) { Sample.stash with consts := .dict (.cons c!"replacements" (.dict (.cons c!"mirrors"
      (.dict (.cons c!"${GNU}" (.str c!"http://gnu") .nil)) .nil)) .nil) } c!"${GNU}/x;name=a;b;name=c" = .ok c ∧
    c.options = [(c!"name", c!"c")]) ∧
    Mirrored [(c!"${GNU}", c!"http://gnu")] c!"${GNU}/x;name=a;b;name=c" c!"http://gnu/x;name=a;b;name=c" := by
  refine ⟨⟨⟨[], c!"/http://gnu/x", [(c!"name", c!"c")]⟩, by decide +kernel, rfl⟩, ?_⟩
  rw [replaceMirrors_iff (by decide)]
  decide +kernel

/-- an assignment of `name` in /w/a_1.bb -/
def Sample.assigned (uid : Nat) (name value : Str) : Item :=
  mkVariable uid ⟨1, [], 1, false, c!"/w/a_1.bb", name ++ c!" = " ++ value, name ++ c!" = " ++ value⟩ name value c!" = "

/-- a recipe with packages, a source and dynamic packages -/
def Sample.packages : Stash :=
  { Sample.stash with items := [Sample.assigned 1 c!"PACKAGES" c!"\"${PN}-x  y\"", Sample.assigned 2 c!"SRC_URI" c!"\"git://h;name=${PN}z\"",
                                Sample.assigned 3 c!"PACKAGES_DYNAMIC" c!"\"^q-.*  ^r-.*\""],
                      map := [(c!"/w/a_1.bb", [])] }

example : ∃ res, getValidPackageNames (Sample.world []) Sample.packages c!"/w/a_1.bb" false = .ok res ∧
    c!"a-x" ∈ res ∧ c!"${PN}-x" ∈ res ∧ c!"y" ∈ res ∧ c!"a-dev" ∈ res ∧ c!"" ∉ res := by
  refine ⟨[c!"${PN}", c!"${PN}-ptest", c!"${PN}-src", c!"${PN}-dbg", c!"${PN}-staticdev", c!"${PN}-dev", c!"${PN}-doc", c!"${PN}-locale",
    c!"${PN}-x", c!"y", c!"a", c!"a-ptest", c!"a-src", c!"a-dbg", c!"a-staticdev", c!"a-dev", c!"a-doc", c!"a-locale", c!"a-x"], ?_, ?_⟩ <;>
    decide +kernel

example : ∃ v, Assigned Sample.packages c!"/w/a_1.bb" c!"PACKAGES" v :=
  ⟨_, Sample.assigned 1 c!"PACKAGES" c!"\"${PN}-x  y\"", List.mem_cons_self, Or.inl rfl, rfl, by decide +kernel⟩

example : getValidNamedResources (Sample.world []) Sample.packages c!"/w/a_1.bb" = .ok [c!"a", c!"az"] := by decide +kernel

/-- the values can be expanded, and the patterns are regular expressions -/
example : getPackagesDynamic (Sample.world []) Sample.packages c!"/w/a_1.bb" = .ok [c!"^q-.*", [], c!"^r-.*"] ∧
    isDynamicPackage (Sample.world []) Sample.packages c!"/w/a_1.bb" c!"q-x" = .ok true ∧ ([c!"^q-.*", [], c!"^r-.*"].all fun p => (compile p).isSome) = true := by
  decide +kernel

/-- the known mirrors are not a dictionary: C66 raises -/
example : (getValidNamedResources (Sample.world []) { Sample.packages with consts := .dict (.cons c!"mirrors" (.list []) (.cons c!"replacements" (.dict (.cons c!"mirrors" (.list []) .nil)) .nil)) }
    c!"/w/a_1.bb").toOption = none := by
  decide +kernel

/-- C61 is false: with two blanks between the patterns every name is a dynamic package, though no pattern written matches it -/
theorem C61_false : ¬ ∀ (W : World) (s : Stash) (file name : Str), file ≠ [] → isDynamicPackage W s file name = .ok true →
    expandTerm W s file name = .ok name →
    ∃ v t ws p, Assigned s file c!"PACKAGES_DYNAMIC" v ∧ expandTerm W s file (varValueStripped v) = .ok t ∧
        Words Blank t ws ∧ p ∈ ws ∧ ∃ r, compile p = some r ∧ (reMatch r.re name).isSome := by
  intro h
  obtain ⟨v, t, ws, p, ⟨x, hx, -, hv, hn⟩, ht, hws, hp, r, hr, hm⟩ := h (Sample.world []) Sample.packages c!"/w/a_1.bb" c!"zzz" (by simp)
    (by decide +kernel) (by decide +kernel)
  have hv3 : varValueStripped v = c!"^q-.*  ^r-.*" := by
    have hx' : x ∈ [Sample.assigned 1 c!"PACKAGES" c!"\"${PN}-x  y\"", Sample.assigned 2 c!"SRC_URI" c!"\"git://h;name=${PN}z\"",
                                Sample.assigned 3 c!"PACKAGES_DYNAMIC" c!"\"^q-.*  ^r-.*\""] := hx
    simp only [List.mem_cons, List.not_mem_nil, or_false] at hx'
    rcases hx' with rfl | rfl | rfl
    · cases hv
      exact absurd hn (by decide +kernel)
    · cases hv
      exact absurd hn (by decide +kernel)
    · cases hv
      decide +kernel
  have ht' : expandTerm (Sample.world []) Sample.packages c!"/w/a_1.bb" (varValueStripped v) = .ok c!"^q-.*  ^r-.*" := by
    rw [hv3]
    decide +kernel
  rw [ht] at ht'
  cases ht'
  have := words_unique hws (words_stashSafe _)
  have hws' : ws = [c!"^q-.*", c!"^r-.*"] := by rw [this]; decide +kernel
  subst hws'
  have : (reMatch r.re c!"zzz").isSome = false := by
    simp only [List.mem_cons, List.not_mem_nil, or_false] at hp
    rcases hp with rfl | rfl
    · have h0 : (compile c!"^q-.*").all (fun r => (reMatch r.re c!"zzz").isSome == false) = true := by decide +kernel
      rw [hr] at h0
      simpa using h0
    · have h0 : (compile c!"^r-.*").all (fun r => (reMatch r.re c!"zzz").isSome == false) = true := by decide +kernel
      rw [hr] at h0
      simpa using h0
  rw [this] at hm
  cases hm

/-- the hypotheses of C61 hold, and the answer can be no -/
example : isDynamicPackage (Sample.world []) { Sample.packages with items := [Sample.assigned 3 c!"PACKAGES_DYNAMIC" c!"\"^q-.* ^r-.*\""] }
    c!"/w/a_1.bb" c!"zzz" = .ok false ∧
    isDynamicPackage (Sample.world []) { Sample.packages with items := [Sample.assigned 3 c!"PACKAGES_DYNAMIC" c!"\"^q-.* ^r-.*\""] }
    c!"/w/a_1.bb" c!"r-1" = .ok true := by decide +kernel

end Oelint

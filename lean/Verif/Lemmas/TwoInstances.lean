import Verif.Lemmas.TwoCached
import Verif.Lemmas.LayerNames
import Verif.Lemmas.Statements
import Verif.Spec.Two
/-! The conditions of `Twin` for C88-C90. -/
set_option linter.unusedSectionVars false
set_option linter.unusedSimpArgs false
set_option linter.unnecessarySeqFocus false
namespace Oelint
variable [Uni]
open Spec

/-! ## line ends -/

theorem univNewlines_end {e t : Str} (h : LineEnd e t) : univNewlines (e ++ t) = '\n' :: univNewlines t := by
  rcases h with rfl | rfl | ⟨rfl, h⟩
  · rw [List.singleton_append, univNewlines.eq_3]
    · rfl
    · intro _ h; simp at h
  · rfl
  · rw [List.singleton_append, univNewlines.eq_3]
    · rfl
    · rintro t' - rfl; simp at h

theorem sameLines_univ {t t' : Str} (h : SameLines t t') : univNewlines t = univNewlines t' := by
  induction h with
  | nil => rfl
  | char c hc _ ih =>
    rw [univNewlines.eq_3 _ _ (fun _ h => absurd h hc.2), univNewlines.eq_3 _ _ (fun _ h => absurd h hc.2), ih]
  | line he he' _ ih => rw [univNewlines_end he, univNewlines_end he', ih]

theorem sameFile_read {r r' : FileRes} (h : SameFile r r') : SameRead r r' := by
  rcases h with rfl | ⟨t, t', rfl, rfl, h⟩
  · cases r <;> rfl
  · exact sameLines_univ h

theorem findLoop_file (W : World) (g : Str → FileRes) (name : Str) (n : Nat) (cur : Str) :
    findLoop { W with file := g } name n cur = findLoop W name n cur := by
  induction n generalizing cur with
  | zero => rfl
  | succ n ih => rw [findLoop, findLoop]; simp only [ih]

theorem layerRootLoop_file (W : World) (g : Str → FileRes) (n : Nat) (cur : Str) :
    layerRootLoop { W with file := g } n cur = layerRootLoop W n cur := by
  induction n generalizing cur with
  | zero => rfl
  | succ n ih => rw [layerRootLoop, layerRootLoop]; simp only [ih]

theorem prepareLines_read {W W' : World} {f : Str} (h : SameRead (W.file f) (W'.file f)) (off : Int) (neg : Bool) :
    prepareLines W' f off neg = prepareLines W f off neg := by
  unfold prepareLines
  cases h1 : W.file f <;> cases h2 : W'.file f <;> rw [h1, h2] at h <;> simp only [SameRead, reduceCtorEq] at h <;>
    first | rfl | simp only [h]

theorem twin_file {W : World} {g : Str → FileRes} (hg : ∀ p, SameRead (W.file p) (g p)) : Twin W { W with file := g } (fun s s' => s = s') where
  cwd := rfl
  find := fun n d => by unfold findLocalOrLayer; rw [findLoop_file]
  root := fun n => by unfold getLayerRoot layerStart; rw [layerRootLoop_file]
  glob := rfl
  repr := rfl
  itemOrder := rfl
  strOrder := rfl
  urlparse := rfl
  read := hg
  core := by rintro s _ rfl; exact ⟨rfl, rfl, rfl, rfl, rfl, rfl⟩
  set := by rintro s _ rfl; intros; rfl
  say := by rintro s _ rfl; intros; rfl
  hash := by rintro s _ rfl; intros; rfl
  conf := by rintro s _ rfl; intros; exact ⟨rfl, rfl⟩
  ignoreClass := by rintro s _ rfl; rfl
  ignoreInclude := by rintro s _ rfl; rfl
  functions := by rintro s _ rfl; rfl
  sets := by rintro s _ rfl; rfl
  mirrors := by rintro s _ rfl; rfl
  imgClasses := by rintro s _ rfl; rfl
  imgVars := by rintro s _ rfl; rfl
  prep := by rintro s _ rfl f off; exact prepareLines_read (hg f) _ _

/-! ## negative inline -/

theorem opening_univ (t : Str) (h : opening <:+: univNewlines t) : opening <:+: t := by
  have key : ∀ (u t : Str), (∀ c ∈ u, c ≠ '\n') → u <+: univNewlines t → u <+: t := by
    intro u
    induction u with
    | nil => intro t _ _; exact List.nil_prefix
    | cons c u ih =>
      intro t hc hp
      fun_cases univNewlines t with
      | case1 => exact absurd (List.prefix_nil.1 hp) (by simp)
      | case2 t =>
        rw [univNewlines.eq_2] at hp
        exact absurd (List.cons_prefix_cons.1 hp).1 (hc c (by simp))
      | case3 d t hne =>
        rw [univNewlines.eq_3 _ _ hne] at hp
        obtain ⟨h1, h2⟩ := List.cons_prefix_cons.1 hp
        have hd : c = d := by
          by_cases hr : d = '\r'
          · rw [hr] at h1; exact absurd h1 (hc c (by simp))
          · rw [h1, if_neg (by simpa using hr)]
        rw [hd]
        exact List.cons_prefix_cons.2 ⟨rfl, ih t (fun x hx => hc x (by simp [hx])) h2⟩
  fun_induction univNewlines t with
  | case1 => exact h
  | case2 t ih =>
    rcases List.infix_cons_iff.1 h with h | h
    · exact absurd (List.cons_prefix_cons.1 h).1 (by decide)
    · exact (ih h).trans ⟨['\r', '\n'], [], by simp⟩
  | case3 c t hne ih =>
    rw [← univNewlines.eq_3 _ _ hne] at h
    have h' := h
    rw [univNewlines.eq_3 _ _ hne] at h
    rcases List.infix_cons_iff.1 h with h | h
    · rw [← univNewlines.eq_3 _ _ hne] at h
      exact (key _ _ (by decide) h).isInfix
    · exact (ih h).trans ⟨[c], [], by simp⟩

theorem inlineSub_none {neg : Bool} {raw : Str} (h : ¬ opening <:+: raw) : inlineSub neg raw = (raw, []) := by
  have := substituted_none (inlineSub_spec neg raw) h
  exact Prod.ext this.1 this.2

theorem chunksFrom_neg {off : Int} {neg neg' : Bool} {n : Nat} {gs : List (List Str)} (h : ∀ g ∈ gs, ¬ opening <:+: g.flatten) :
    chunksFrom off neg n gs = chunksFrom off neg' n gs := by
  induction gs generalizing n with
  | nil => rfl
  | cons g gs ih =>
    rw [chunksFrom, chunksFrom, ih (fun x hx => h x (by simp [hx]))]
    congr 1
    unfold mkChunk
    rw [inlineSub_none (h g (by simp)), inlineSub_none (h g (by simp))]

theorem chunksOf_neg {off : Int} {neg neg' : Bool} {t : Str} (h : ¬ opening <:+: t) : chunksOf off neg t = chunksOf off neg' t := by
  rw [chunksOf_eq_chunkLines, chunksOf_eq_chunkLines]
  rcases groups_or_error (readlines_all_isLine t) with ⟨gs, hgs⟩ | ⟨herr, _⟩
  · rw [chunkLines_of_groups hgs (readlines_all_isLine t) _ _ (Nat.le_refl _),
      chunkLines_of_groups hgs (readlines_all_isLine t) _ _ (Nat.le_refl _), chunksFrom_neg (neg' := neg')]
    intro g hg hi
    apply h
    refine hi.trans ?_
    have e : t = gs.flatten.flatten := by rw [groups_flatten hgs]; exact (readlines_isLines t).1.symm
    rw [e]
    obtain ⟨a, b, rfl⟩ := List.append_of_mem hg
    exact ⟨a.flatten.flatten, b.flatten.flatten, by simp⟩
  · rw [herr _ _ _ _ (Nat.le_refl _), herr _ _ _ _ (Nat.le_refl _)]

/-- the states differ in the flag and the fingerprint -/
def NegRel (s s' : Stash) : Prop := ∃ b h, s' = { s with negative := b, hashed := h }

theorem twin_negative {W : World} (hw : NoInlineFiles W) : Twin W W NegRel where
  cwd := rfl
  find := fun _ _ => rfl
  root := fun _ => rfl
  glob := rfl
  repr := rfl
  itemOrder := rfl
  strOrder := rfl
  urlparse := rfl
  read := fun p => by cases W.file p <;> rfl
  core := by rintro s _ ⟨b, h, rfl⟩; exact ⟨rfl, rfl, rfl, rfl, rfl, rfl⟩
  set := by rintro s _ ⟨b, h, rfl⟩; intros; exact ⟨b, h, rfl⟩
  say := by rintro s _ ⟨b, h, rfl⟩ f; exact ⟨b, h, rfl⟩
  hash := by rintro s _ ⟨b, h, rfl⟩ t; exact ⟨b, h ++ t, rfl⟩
  conf := by rintro s _ ⟨b, h, rfl⟩; intros; exact ⟨rfl, b, h, rfl⟩
  ignoreClass := by rintro s _ ⟨b, h, rfl⟩; rfl
  ignoreInclude := by rintro s _ ⟨b, h, rfl⟩; rfl
  functions := by rintro s _ ⟨b, h, rfl⟩; rfl
  sets := by rintro s _ ⟨b, h, rfl⟩; rfl
  mirrors := by rintro s _ ⟨b, h, rfl⟩; rfl
  imgClasses := by rintro s _ ⟨b, h, rfl⟩; rfl
  imgVars := by rintro s _ ⟨b, h, rfl⟩; rfl
  prep := by
    rintro s _ ⟨b, h, rfl⟩ f off
    unfold prepareLines
    cases hf : W.file f with
    | text t => exact chunksOf_neg fun h => hw f t hf (opening_univ t h)
    | notFound => rfl
    | denied => rfl
    | fails => rfl

/-! ## known distros and machines -/

/-- the states differ in the known distros and machines -/
def NamesRel (s s' : Stash) : Prop :=
  ∃ db, s' = { s with consts := db } ∧ UsableConstants s.consts ∧ UsableConstants db ∧ OtherNames s.consts db

theorem getKeys_valueAt {db db' : J} (h : IsDict db) (h' : IsDict db') {k k' : Str} (h1 : valueAt [k] db' = valueAt [k] db) :
    getKeys [k, k'] db' = getKeys [k, k'] db := by
  obtain ⟨d, rfl⟩ := h
  obtain ⟨d', rfl⟩ := h'
  have : d'.get k = d.get k := by
    simp only [valueAt] at h1
    cases ha : d'.get k <;> cases hb : d.get k <;> simp only [ha, hb, Option.bind_none, Option.bind_some, reduceCtorEq] at h1 <;>
      first | rfl | exact h1
  rw [getKeys, getKeys, this]

theorem getKeys_section {db db' : J} (h : UsableConstants db) (h' : UsableConstants db') {k k' : Str}
    (hk : k ∈ [c!"functions", c!"ignore", c!"sets", c!"replacements"]) (h1 : valueAt [k, k'] db' = valueAt [k, k'] db) :
    getKeys [k, k'] db' = getKeys [k, k'] db := by
  have a := h.sections k hk
  have a' := h'.sections k hk
  obtain ⟨d, rfl⟩ := h.dict
  obtain ⟨d', rfl⟩ := h'.dict
  simp only [valueAt] at h1 a a'
  simp only [getKeys]
  have key : ∀ (x : Option J), (∀ y, x.bind (valueAt []) = some y → IsDict y) →
      ∃ e, x.getD J.empty = .dict e ∧ x.bind (valueAt [k']) = e.get k' := by
    intro x hx
    cases x with
    | none => exact ⟨.nil, rfl, rfl⟩
    | some y =>
      obtain ⟨e, rfl⟩ := hx y rfl
      refine ⟨e, rfl, ?_⟩
      simp only [Option.bind_some, valueAt]
      cases e.get k' <;> rfl
  obtain ⟨e, e1, e2⟩ := key _ a
  obtain ⟨e', e3, e4⟩ := key _ a'
  rw [e1, e3]
  simp only [getKeys]
  have : e'.get k' = e.get k' := by rw [← e2, ← e4]; exact h1
  rw [this]

theorem otherNames_of_same {db db' : J} (h : SameButNames db db') : OtherNames db db' := h.1

theorem twin_names (W : World) : Twin W W NamesRel where
  cwd := rfl
  find := fun _ _ => rfl
  root := fun _ => rfl
  glob := rfl
  repr := rfl
  itemOrder := rfl
  strOrder := rfl
  urlparse := rfl
  read := fun p => by cases W.file p <;> rfl
  core := by rintro s _ ⟨b, rfl, -⟩; exact ⟨rfl, rfl, rfl, rfl, rfl, rfl⟩
  set := by rintro s _ ⟨b, rfl, h⟩; intros; exact ⟨b, rfl, h⟩
  say := by rintro s _ ⟨b, rfl, h⟩ f; exact ⟨b, rfl, h⟩
  hash := by rintro s _ ⟨b, rfl, h⟩ t; exact ⟨b, rfl, h⟩
  conf := by
    rintro s _ ⟨b, rfl, h1, h2, h3⟩ key fn hk
    obtain ⟨db1, a1, a2, -, -, a3, -⟩ := addConstants_name h1 (fn := fn) hk
    obtain ⟨db2, b1, b2, -, -, b3, -⟩ := addConstants_name h2 (fn := fn) hk
    simp only [a1, b1]
    exact ⟨trivial, db2, rfl, a2, b2, fun ks k1 k2 k3 k4 => by rw [b3 ks k1 k2 k3 k4, h3 ks k1 k2 k3 k4, a3 ks k1 k2 k3 k4]⟩
  ignoreClass := by
    rintro s _ ⟨b, rfl, h1, h2, h3⟩
    unfold classIgnore constGet getByPath
    rw [show pathKeys c!"ignore/classes" = [c!"ignore", c!"classes"] by decide]
    exact getKeys_section h1 h2 (by decide) (h3 _ (by decide) (by decide) (by decide) (by decide))
  ignoreInclude := by
    rintro s _ ⟨b, rfl, h1, h2, h3⟩
    unfold includeIgnore constGet getByPath
    rw [show pathKeys c!"ignore/include" = [c!"ignore", c!"include"] by decide]
    exact getKeys_section h1 h2 (by decide) (h3 _ (by decide) (by decide) (by decide) (by decide))
  functions := by
    rintro s _ ⟨b, rfl, h1, h2, h3⟩
    unfold functionsKnown constGet getByPath
    rw [show pathKeys c!"functions/known" = [c!"functions", c!"known"] by decide]
    exact getKeys_section h1 h2 (by decide) (h3 _ (by decide) (by decide) (by decide) (by decide))
  sets := by
    rintro s _ ⟨b, rfl, h1, h2, h3⟩
    unfold setsBase constGet getByPath
    rw [show pathKeys c!"sets/base" = [c!"sets", c!"base"] by decide]
    exact getKeys_section h1 h2 (by decide) (h3 _ (by decide) (by decide) (by decide) (by decide))
  mirrors := by
    rintro s _ ⟨b, rfl, h1, h2, h3⟩
    unfold mirrorsKnown constGet getByPath
    rw [show pathKeys c!"replacements/mirrors" = [c!"replacements", c!"mirrors"] by decide]
    exact getKeys_section h1 h2 (by decide) (h3 _ (by decide) (by decide) (by decide) (by decide))
  imgClasses := by
    rintro s _ ⟨b, rfl, h1, h2, h3⟩
    unfold imagesClasses constGet getByPath
    rw [show pathKeys c!"images/known-classes" = [c!"images", c!"known-classes"] by decide]
    exact getKeys_valueAt h1.dict h2.dict (h3 _ (by decide) (by decide) (by decide) (by decide))
  imgVars := by
    rintro s _ ⟨b, rfl, h1, h2, h3⟩
    unfold imagesVariables constGet getByPath
    rw [show pathKeys c!"images/known-variables" = [c!"images", c!"known-variables"] by decide]
    exact getKeys_valueAt h1.dict h2.dict (h3 _ (by decide) (by decide) (by decide) (by decide))
  prep := by rintro s _ ⟨b, rfl, -⟩ f off; rfl

end Oelint

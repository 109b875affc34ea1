import Verif.Lemmas.Finalize
import Verif.Lemmas.LoadSpec
import Verif.Lemmas.Paths
import Verif.Lemmas.Names
import Verif.Lemmas.SampleRuns
/-!
# Histories of calls: C12, C38-C40, C44-C46, C48

`Stash.init` is a new stash; `History W P s s'` is any sequence of calls, failing ones included; `Added W s ps s'` is a
sequence of successful `AddFile(path)`.
-/
namespace Oelint
open Spec
set_option linter.unusedSectionVars false
variable [Uni]

/-! ## C12 -/

/-- **C12** An include item reports in `FileIncluded` the file that is found next to its own file or else in its layer,
and no file exactly if there is none; a reported file is not on the list of ignored includes. -/
theorem C12_include_reports (W : World) (n : Nat) (path : Str) (off : Int) (forced : Option Str) (s s' : Stash)
    (res : List Item) (h : addFile W n path off forced s = (.ok res, s')) (it : Item) (hi : it ∈ res) (name p stmt : Str)
    (hp : it.payload = .include name p stmt) :
    ∃ (st : Stash) (nm : Str), expandTerm W st it.origin name = .ok nm ∧
      (p ≠ [] → Finds W (dirname it.origin) nm p ∧ ∃ ign, includeIgnore st.consts = .ok ign ∧ ign.has nm = false) ∧
      (p = [] → ∀ q, Finds W (dirname it.origin) nm q → q = []) := by
  have h1 := addFile_loadSpec h it hi
  rw [hp] at h1
  rw [addFile_origin h it hi]
  obtain ⟨st, nm, h2, h3, h4⟩ := h1
  obtain ⟨h5, h6⟩ := findLocalOrLayer_spec h3
  exact ⟨st, nm, h2, fun hne => ⟨h5 hne, h4 hne⟩, h6⟩

/-- **C12** An inherit item reports in `FilePaths` (without duplicates) exactly the class files that are found for the names
it inherits, unless the list of ignored classes contains the whole text of names. -/
theorem C12_inherit_reports (W : World) (n : Nat) (path : Str) (off : Int) (forced : Option Str) (s s' : Stash)
    (res : List Item) (h : addFile W n path off forced s = (.ok res, s')) (it : Item) (hi : it ∈ res) (stmt cls : Str)
    (paths : List Str) (hp : it.payload = .inherit stmt cls paths) :
    ∃ (st : Stash) (nm : Str) (locs ws : List Str), expandTerm W st it.origin cls = .ok nm ∧ Pieces ' ' nm ws ∧
      (locs = [c!"classes", c!"classes-recipe", c!"classes-global"] ∨
        stmt = c!"INHERIT" ∧ locs = [c!"classes", c!"classes-global"]) ∧
      paths.Nodup ∧
      (∀ p ∈ paths, ∃ w ∈ ws, w ≠ [] ∧ ∃ f, ClassFile w f ∧ FindsClass W (dirname it.origin) f locs p) ∧
      ∀ w ∈ ws, w ≠ [] → ∀ f, ClassFile w f → ∀ p, FindsClass W (dirname it.origin) f locs p → p ∈ paths ∨
        ∃ (st' : Stash) (ign : J), classIgnore st'.consts = .ok ign ∧ ign.has nm = true := by
  have h1 := addFile_loadSpec h it hi
  rw [hp] at h1
  rw [addFile_origin h it hi]
  obtain ⟨st, nm, locs, h2, h3, h4, h5, h6⟩ := h1
  have hs : ∀ w, w ∈ splitNE ' ' nm ↔ w ∈ splitC ' ' nm ∧ w ≠ [] := by
    intro w; unfold splitNE; simp [List.mem_filter]
  refine ⟨st, nm, locs, splitC ' ' nm, h2, pieces_splitC _ _, h3, h4, fun p hp => ?_, fun w hw hne f hf p hp => ?_⟩
  · obtain ⟨hpn, w, hw, hf⟩ := h5 p hp
    obtain ⟨h7, h8⟩ := (hs w).1 hw
    exact ⟨w, h7, h8, withBbclass w, classFile_withBbclass w, (findClass_spec _ hf).1 hpn⟩
  · obtain ⟨q, hq, hc⟩ := h6 w ((hs w).2 ⟨hw, hne⟩)
    have hfe : f = withBbclass w := by
      rcases hf with ⟨g1, g2⟩ | ⟨g1, g2⟩ <;> rcases classFile_withBbclass w with ⟨k1, k2⟩ | ⟨k1, k2⟩
      · rw [g2, k2]
      · exact absurd g1 k1
      · exact absurd k1 g1
      · rw [g2, k2]
    subst hfe
    obtain ⟨j1, j2⟩ := findClass_spec _ hq
    rcases hc with hc | hc | hc
    · exact absurd hp (j2 hc p)
    · left
      have hqn : q ≠ [] := (h5 q hc).1
      rw [findsClass_unique hp (j1 hqn)]; exact hc
    · exact Or.inr hc

/-- **C12** In a stash filled by successful calls of `AddFile`, the text of every file that is reported by an item of the
stash is in the stash, in items of that file. -/
theorem C12_reported_files_are_loaded (W : World) (ns neg : Bool) (consts : J) (uid : Nat) (args : List Str) (s : Stash)
    (h : Added W (Stash.init ns neg consts uid) args s) (it : Item) (hi : it ∈ s.items) (p t : Str) (hp : Reports it p)
    (ht : W.file (abspath W.cwd p) = .text t) :
    ∃ sub : List Item, sub.Sublist s.items ∧ (∀ x ∈ sub, x.origin = abspath W.cwd p) ∧
      (sub.map (·.realRaw)).flatten = univNewlines t := by
  have hk := (added_keyed h (keyed_init W ns neg consts uid)).1
  rcases hk.items it hi p ((reports_iff it p).1 hp) with h1 | h1
  · cases h1
  · exact h1.2 t ht

/-! ## C38 -/

/-- **C38** After any calls of `AddFile` and `Finalize` (whether they succeed or not), the items of a `.bbclass` file are
in the stash once or not at all: they are the text of the file once, in increasing `InFileLine`. -/
theorem C38_class_loaded_once (W : World) (ns neg : Bool) (consts : J) (uid : Nat) (s : Stash)
    (h : History W Call.loading (Stash.init ns neg consts uid) s) (f : Str) (hf : (splitext f).2 = c!".bbclass")
    (l : List Item) (hl : l = s.items.filter (fun i => i.origin == f)) :
    l = [] ∨ ∃ t, W.file f = .text t ∧ (l.map (·.realRaw)).flatten = univNewlines t ∧
      l.Pairwise (fun a b => a.inFileLine < b.inFileLine) := by
  obtain ⟨h1, _⟩ := (history_single h hf).new (by simp [Stash.init]) rfl
  subst hl
  rcases h1 with h1 | ⟨t, h1, h2, h3⟩
  · left
    unfold proj at h1
    simpa using h1
  · right
    refine ⟨t, h1, ?_, ?_⟩
    · unfold proj at h2
      rw [List.map_map] at h2; exact h2
    · unfold proj at h3
      rw [List.pairwise_map] at h3; exact h3

/-! ## C39 -/

/-- **C39** After any calls of `AddFile` and `Finalize`, every file (`.inc`, `.bb`, `.conf`) that an item of a file
reports to include is linked to the file of that item, so `GetItemsFor(filename=...)` contains its items. The part that
is missing is `.bbclass`: see `C39_class_linked_once` and the counterexample. -/
theorem C39_includes_linked_partial (W : World) (ns neg : Bool) (consts : J) (uid : Nat) (s : Stash)
    (h : History W Call.loading (Stash.init ns neg consts uid) s) (it : Item) (hi : it ∈ s.items) (p : Str)
    (hp : Reports it p) (he : (splitext (abspath W.cwd p)).2 ∈ [c!".inc", c!".bb", c!".conf"]) :
    abspath W.cwd p ∈ links s it.origin ∧
    ∀ x ∈ s.items, x.origin = abspath W.cwd p → x ∈ getItemsFor W s { filename := some it.origin } := by
  have hs := history_sound h (sound_init W ns neg consts uid)
  have h1 := hs.linked it hi p ((reports_iff it p).1 hp) he
  obtain ⟨fs, h2, h3⟩ := mem_links.1 h1
  refine ⟨h1, fun x hx ho => (mem_getItemsFor W s _ x).2 ⟨hx, fun fn hfn _ => ?_, by simp [given], by simp [given]⟩⟩
  simp only [Option.some.injEq] at hfn
  subst hfn
  exact Or.inr ⟨rfl, fs, h2, ho ▸ h3⟩

/-- **C39** After successful calls of `AddFile`, every `.bbclass` file with items in the stash was passed to `AddFile` by
the caller or is linked to at least one file. -/
theorem C39_class_linked_once_partial (W : World) (ns neg : Bool) (consts : J) (uid : Nat) (args : List Str) (s : Stash)
    (h : Added W (Stash.init ns neg consts uid) args s) (it : Item) (hi : it ∈ s.items)
    (he : (splitext it.origin).2 = c!".bbclass") :
    (∃ p ∈ args, abspath W.cwd p = it.origin) ∨ ∃ g, it.origin ∈ links s g := by
  have h1 : History W Call.loading (Stash.init ns neg consts uid) s := added_history h
  have h2 := (history_single h1 he).new (by simp [Stash.init]) rfl
  have h3 : it.origin ∈ s.seenClasses := by
    by_contra hn
    have := h2.2 hn
    unfold proj at this
    rw [List.map_eq_nil_iff, List.filter_eq_nil_iff] at this
    exact this it hi (by simp)
  clear h1 h2
  have key : ∀ f ∈ s.seenClasses, (∃ p ∈ args, abspath W.cwd p = f) ∨ ∃ g, f ∈ links s g := by
    clear h3 he hi it
    generalize hs0 : Stash.init ns neg consts uid = s0 at h
    induction h with
    | nil => subst hs0; intro f hf; simp [Stash.init] at hf
    | @snoc s1 s2 ps p depth res h hp ih =>
      intro f hf
      rcases addFile_classLinked W _ _ _ _ _ _ _ hp f hf with h1 | h1 | h1
      · rcases ih f h1 with ⟨q, hq, h2⟩ | ⟨g, h2⟩
        · exact Or.inl ⟨q, by simp [hq], h2⟩
        · have hg := addFile_linksGrow (W := W) depth p 0 none s1
          rw [hp] at hg
          exact Or.inr ⟨g, hg.2 _ _ h2⟩
      · exact Or.inl ⟨p, by simp, h1.symm⟩
      · exact Or.inr h1
  exact key _ h3

/-! ## C40 -/

/-- **C40** Adding a file again that is neither `.inc`, `.bb` nor `.conf` (so every `.bbappend` and `.bbclass`) returns `[]` and
changes nothing, whatever calls were made in between and whether or not the first call succeeded. -/
theorem C40_seen_again (W : World) (P : Call → Prop) (d d' : Nat) (path : Str) (o off : Int) (fo forced : Option Str)
    (s0 s : Stash) (h : History W P (addFile W (d + 1) path o fo s0).2 s)
    (he : (splitext (abspath W.cwd path)).2 ∉ [c!".inc", c!".bb", c!".conf"]) :
    addFile W (d' + 1) path off forced s = (.ok [], s) := by
  apply addFile_seen
  have h1 := history_seenGrow h
  by_cases hs : alreadySeen s0 (abspath W.cwd path) = true
  · rw [addFile_seen _ _ hs] at h1
    unfold alreadySeen at hs ⊢
    simp only [Bool.or_eq_true, Bool.and_eq_true, List.contains_eq_mem, decide_eq_true_eq] at hs ⊢
    rcases hs with ⟨h2, h3⟩ | h2
    · exact Or.inl ⟨h1.1 _ h2, h3⟩
    · exact Or.inr (h1.2 _ h2)
  · have hs : alreadySeen s0 (abspath W.cwd path) = false := by simpa using hs
    have h2 := addFile_marks (seenGrow_step W) d path o fo hs
    refine alreadySeen_of_seen (h1.1 _ (h2.1 _ ?_)) (fun hb => h1.2 _ (h2.2 _ ?_)) he
    · unfold markSeen
      simp only
      split
      · rename_i hc; simpa using hc
      · simp
    · unfold markSeen
      simp only
      rw [if_pos (by simp [hb])]
      simp

/-- **C40** A `.inc`, `.bb` or `.conf` file is parsed by every call, after whatever calls, failed attempts included: if the
call succeeds the result is the whole text of the file. The same is false for the other files: a second attempt
after a failed one returns `[]`, see the counterexample. -/
theorem C40_retry_partial (W : World) (P : Call → Prop) (ns neg : Bool) (consts : J) (uid : Nat) (s s' : Stash)
    (h : History W P (Stash.init ns neg consts uid) s) (d : Nat) (path : Str) (off : Int) (forced : Option Str)
    (res : List Item) (t : Str) (he : (splitext (abspath W.cwd path)).2 ∈ [c!".inc", c!".bb", c!".conf"])
    (ht : W.file (abspath W.cwd path) = .text t) (ha : addFile W d path off forced s = (.ok res, s')) :
    (res.map (·.realRaw)).flatten = univNewlines t := by
  have hc : ClassesOnly s := history_classesOnly h (by intro f hf; simp [Stash.init] at hf)
  obtain ⟨n, ⟨ok⟩⟩ := addFile_file ha (not_alreadySeen hc he) ht
  exact ok.text

/-! ## C44 -/

/-- **C44** After any calls of `AddFile` and `Finalize` on a new stash, `Finalize` succeeds, and then every file is linked to itself, to the files
it was linked to and the files those were linked to, without duplicates, and only to files reachable over links. It
is linked to all reachable files if links led only to files entered before. -/
theorem C44_finalize_partial (W : World) (ns neg : Bool) (consts : J) (uid : Nat) (s : Stash)
    (h : History W Call.loading (Stash.init ns neg consts uid) s) :
    ∃ s', finalize W s = (.ok (), s') ∧ s'.map.map (·.1) = s.map.map (·.1) ∧
    ∀ k ∈ s.map.map (·.1),
      (links s' k).Nodup ∧ k ∈ links s' k ∧ (∀ x ∈ links s k, x ∈ links s' k) ∧
      (∀ i ∈ links s k, ∀ x ∈ links s i, x ∈ links s' k) ∧
      (∀ x ∈ links s' k, Reach s k x) ∧
      ((∀ k i, i ∈ links s k → i = k ∨ Before (s.map.map (·.1)) i k) → ∀ x, x ∈ links s' k ↔ Reach s k x) := by
  have hs := history_sound h (sound_init W ns neg consts uid)
  obtain ⟨_, s', h1⟩ := closed_finalize W s hs.closed
  obtain ⟨h2, _⟩ := finalize_ok h1
  have hr : ∀ k x, x ∈ links s' k → Reach s k x := fun k x hx =>
    h2.sound (s := s) (fun j y hy => .step hy (.refl _)) k x hx
  refine ⟨s', h1, h2.keys, fun k hk => ⟨h2.nodup hs.good.1 hk, ?_, h2.grow k, ?_, hr k, fun hord x => ⟨hr k x, fun hx => ?_⟩⟩⟩
  · exact (h2.two hk).1
  · exact (h2.two hk).2
  · exact h2.complete (s := s) (done := []) hs.good.1 (by simp) (fun _ _ => rfl) (fun k i hi _ => hord k i hi) k hk x hx

theorem before_cons {k0 : Str} {ks : List Str} {i k : Str} (hn : (k0 :: ks).Nodup) (hk : k ∈ ks) :
    Before (k0 :: ks) i k ↔ i = k0 ∨ Before ks i k := by
  constructor
  · rintro ⟨a, b, c, he⟩
    cases a with
    | nil =>
      simp only [List.nil_append, List.cons.injEq] at he
      exact Or.inl he.1.symm
    | cons z a =>
      simp only [List.cons_append, List.cons.injEq] at he
      exact Or.inr ⟨a, b, c, he.2⟩
  · rintro (rfl | ⟨a, b, c, rfl⟩)
    · obtain ⟨b, c, rfl⟩ := List.append_of_mem hk
      exact ⟨[], b, c, rfl⟩
    · exact ⟨k0 :: a, b, c, rfl⟩

theorem not_before_head {k0 : Str} {ks : List Str} {i : Str} (hn : (k0 :: ks).Nodup) : ¬ Before (k0 :: ks) i k0 := by
  rintro ⟨a, b, c, he⟩
  have h1 : k0 ∉ ks := (List.nodup_cons.1 hn).1
  cases a with
  | nil =>
    simp only [List.nil_append, List.cons.injEq] at he
    exact h1 (by rw [he.2]; simp)
  | cons z a =>
    simp only [List.cons_append, List.cons.injEq] at he
    exact h1 (by rw [he.2]; simp)

/-- one pass: files entered before have their new links, the others still the old ones -/
theorem CloseSteps.exact {ks : List Str} {m m' : List (Str × List Str)} (h : CloseSteps ks m m') (hn : ks.Nodup) {k : Str}
    (hk : k ∈ ks) (x : Str) : x ∈ lk m' k ↔ x = k ∨ x ∈ lk m k ∨ ∃ i ∈ lk m k,
      (Before ks i k ∧ x ∈ lk m' i) ∨ (¬ Before ks i k ∧ x ∈ lk m i) := by
  induction h with
  | nil => cases hk
  | @cons k0 ks m m1 m' h hs ih =>
    have hnc := List.nodup_cons.1 hn
    by_cases hj : k = k0
    · subst hj
      rw [hs.other _ hnc.1, h.mem]
      simp only [not_before_head hn, false_and, not_false_eq_true, true_and, false_or]
    · have hk : k ∈ ks := (List.mem_cons.1 hk).resolve_left hj
      have h1 : ∀ j, j ≠ k0 → lk m1 j = lk m j := fun j hj => by unfold lk; rw [h.other j hj]
      rw [ih hnc.2 hk, h1 k hj]
      refine or_congr_right (or_congr_right (exists_congr fun i => and_congr_right fun _ => ?_))
      rw [before_cons hn hk]
      by_cases hi : i = k0
      · subst hi
        have hnb : ¬ Before ks i k := by
          rintro ⟨a, b, c, he⟩
          exact hnc.1 (by rw [he]; simp)
        simp only [hnb, false_and, not_false_eq_true, true_and, false_or, not_true_eq_false, or_false]
        rw [hs.other _ hnc.1]
      · simp only [hi, false_or]
        rw [h1 i hi]

/-- **C44** What `Finalize` computes exactly: in the order in which the files were entered, each file gets linked to itself and to the
files its links are linked to by then. -/
theorem C44_one_pass (W : World) (ns neg : Bool) (consts : J) (uid : Nat) (s : Stash)
    (h : History W Call.loading (Stash.init ns neg consts uid) s) :
    ∃ s', finalize W s = (.ok (), s') ∧ ∀ k ∈ s.map.map (·.1), ∀ x, x ∈ links s' k ↔ x = k ∨ x ∈ links s k ∨ ∃ i ∈ links s k,
      (Before (s.map.map (·.1)) i k ∧ x ∈ links s' i) ∨ (¬ Before (s.map.map (·.1)) i k ∧ x ∈ links s i) := by
  have hs := history_sound h (sound_init W ns neg consts uid)
  obtain ⟨_, s', h1⟩ := closed_finalize W s hs.closed
  exact ⟨s', h1, fun k hk x => (finalize_ok h1).1.exact hs.good.1 hk x⟩

/-! ## C45 -/

/-- **C45** After `Finalize`, the `IncludedFrom` of an item has, in addition to what was in it, exactly the files linked to the
files that the file of the item is linked to; nothing else of the items changes. -/
theorem C45_included_from (W : World) (ns neg : Bool) (consts : J) (uid : Nat) (s : Stash)
    (h : History W Call.loading (Stash.init ns neg consts uid) s) :
    ∃ s', finalize W s = (.ok (), s') ∧ List.Forall₂ (fun a b : Item => b = { a with includedFrom := b.includedFrom } ∧
      ∀ f, f ∈ b.includedFrom ↔ f ∈ a.includedFrom ∨ ∃ k, f ∈ links s' k ∧ a.origin ∈ links s' k) s.items s'.items := by
  have hs := history_sound h (sound_init W ns neg consts uid)
  obtain ⟨_, s', h1⟩ := closed_finalize W s hs.closed
  obtain ⟨h2, h3⟩ := finalize_ok h1
  have hkeys : s'.map.map (·.1) = keys s := h2.keys
  refine ⟨s', h1, ?_⟩
  have h4 := includedLoop_spec W s'.map { s with map := s'.map } (by
    rintro ⟨k, v⟩ hkv rfl
    exact hs.good.2 (hkeys ▸ List.mem_map.2 ⟨_, hkv, rfl⟩))
  rw [← h3] at h4
  refine forall₂_mono ?_ h4
  rintro a b ⟨h5, h6⟩
  refine ⟨h5, fun f => ?_⟩
  rw [h6]
  apply or_congr_right
  constructor
  · rintro ⟨k, v, hkv, hf, ho⟩
    have hk : k ∈ keys s := hkeys ▸ List.mem_map.2 ⟨_, hkv, rfl⟩
    have hv : lk s'.map k = v := by
      unfold lk
      rw [dget_of_mem (by rw [hkeys]; exact hs.good.1) hkv]
      rfl
    refine ⟨k, by rw [links_eq, hv]; exact hf, ?_⟩
    rcases ho with ho | ho
    · rw [ho]; exact (h2.two hk).1
    · exact ho
  · rintro ⟨k, hf, ho⟩
    obtain ⟨v, hv, hf⟩ := mem_links.1 hf
    exact ⟨k, v, dget_mem hv, hf, Or.inr ho⟩

/-- **C45** `IncludedFrom` never shrinks: `AddFile` leaves it alone -/
theorem C45_add_file_keeps (W : World) (d : Nat) (path : Str) (off : Int) (forced : Option Str) (s : Stash) (it : Item)
    (hi : it ∈ s.items) : ∃ n, { it with line := n } ∈ (addFile W d path off forced s).2.items :=
  addFile_items d path off forced s hi

/-! ## C46 -/

/-- **C46** After successful calls of `AddFile`, `GetRecipes` returns exactly the `.bb` files among those added: the files
passed to `AddFile` and the files that items of the stash report to have included or inherited. -/
theorem C46_recipes_added (W : World) (ns neg : Bool) (consts : J) (uid : Nat) (args : List Str) (s : Stash)
    (h : Added W (Stash.init ns neg consts uid) args s) (f : Str) :
    f ∈ getRecipes s ↔ c!".bb" <:+ f ∧
      ((∃ p ∈ args, abspath W.cwd p = f) ∨ ∃ it ∈ s.items, ∃ p, Reports it p ∧ abspath W.cwd p = f) := by
  have hend : endsWith c!".bb" f = true ↔ c!".bb" <:+ f := by unfold endsWith; exact List.isSuffixOf_iff_suffix
  unfold getRecipes
  rw [mem_sortBy, mem_dedup, List.mem_filter, hend, and_comm]
  apply and_congr_right
  intro _
  constructor
  · intro hk
    rcases added_upper h f hk with h1 | h1 | ⟨it, hi, p, hp, h1⟩
    · simp [keys, Stash.init] at h1
    · exact Or.inl h1
    · exact Or.inr ⟨it, hi, p, (reports_iff it p).2 hp, h1⟩
  · obtain ⟨h1, h2⟩ := added_keyed h (keyed_init W ns neg consts uid)
    rintro (⟨p, hp, rfl⟩ | ⟨it, hi, p, hp, rfl⟩)
    · exact (h2 p hp).1
    · rcases h1.items it hi p ((reports_iff it p).1 hp) with h3 | h3
      · cases h3
      · exact h3.1

/-! ## C48 -/

/-- an item without what later calls change -/
def core (i : Item) : Item := { i with line := 0, includedFrom := [] }

/-- **C48** `AddFile` feeds the fingerprint with the items it puts into the stash, in order and with the values they have
at that moment (the returned ones last); an `AddFile` that fails also counts the items of the files loaded before the failure. -/
theorem C48_add_file (W : World) (d : Nat) (path : Str) (off : Int) (forced : Option Str) (s : Stash) :
    ∃ added : List Item, (addFile W d path off forced s).2.hashed = s.hashed ++ (added.map W.repr).flatten ∧
      (addFile W d path off forced s).2.items.map core = s.items.map core ++ added.map core ∧
      ∀ res, (addFile W d path off forced s).1 = .ok res → res <:+ added := by
  have hcore : ∀ {a b : List Item}, Relined a b → b.map core = a.map core := fun h =>
    h.map_eq (f := core) (fun a n => rfl)
  cases d with
  | zero => exact ⟨[], by simp [addFile, M.raise], by simp [addFile, M.raise], fun res hr => by cases hr⟩
  | succ d =>
    by_cases hs : alreadySeen s (abspath W.cwd path) = true
    · rw [addFile_seen _ _ hs]
      exact ⟨[], by simp, by simp, fun res hr => by cases hr; exact List.suffix_refl _⟩
    · have hs : alreadySeen s (abspath W.cwd path) = false := by simpa using hs
      rcases addFile_new (hashes_step W) d path off forced hs with ⟨e, s', he, l, h1, h2⟩ | ⟨res, s4, he, l, h1, h2⟩
      · rw [he]
        refine ⟨l, h1, ?_, fun res hr => by cases hr⟩
        rw [hcore h2, List.map_append]; rfl
      · rw [he]
        refine ⟨l ++ res, ?_, ?_, fun r hr => by cases hr; exact List.suffix_append _ _⟩
        · show s4.hashed ++ _ = _
          rw [h1]; simp [markSeen, Stash.say]
        · show (s4.items ++ res).map core = _
          rw [List.map_append, hcore h2]; simp [markSeen, Stash.say]

/-- **C48** `Append`, `Remove` and `Finalize` leave the fingerprint alone (queries do not change the state at all). -/
theorem C48_other_calls (W : World) (s : Stash) (l : List Item) :
    fingerPrint W (appendItems s l) = fingerPrint W s ∧ fingerPrint W (removeItems l s).2 = fingerPrint W s ∧
    fingerPrint W (finalize W s).2 = fingerPrint W s := by
  refine ⟨rfl, ?_, ?_⟩
  · obtain ⟨items, h⟩ := removeItems_frame l s
    rw [h]; rfl
  · obtain ⟨items, map, h, _⟩ := finalize_frame W s
    rw [h]; rfl

/-- **C48** After any calls of `AddFile` and `Finalize` on a new stash, the text that is hashed are the two flags and the items in the order
they were added. -/
theorem C48_hashed (W : World) (ns neg : Bool) (consts : J) (uid : Nat) (s : Stash)
    (h : History W Call.loading (Stash.init ns neg consts uid) s) :
    ∃ added : List Item, s.hashed = pyBool ns ++ c!":" ++ pyBool neg ++ (added.map W.repr).flatten ∧
      s.items.map core = added.map core := by
  show ∃ added : List Item, s.hashed = (Stash.init ns neg consts uid).hashed ++ (added.map W.repr).flatten ∧
      s.items.map core = added.map core
  generalize hs0 : Stash.init ns neg consts uid = s0 at h
  induction h with
  | nil => subst hs0; exact ⟨[], by simp, by simp [Stash.init]⟩
  | @snoc s1 h depth c hc ih =>
    obtain ⟨l, h1, h2⟩ := ih
    cases c with
    | addFile p o fo =>
      obtain ⟨l', h3, h4, _⟩ := C48_add_file W depth p o fo s1
      refine ⟨l ++ l', ?_, ?_⟩
      · show (addFile W depth p o fo s1).2.hashed = _
        rw [h3, h1]; simp
      · show (addFile W depth p o fo s1).2.items.map core = _
        rw [h4, h2]; simp
    | append l => cases hc
    | remove l => cases hc
    | finalize =>
      obtain ⟨items, map, h3, h4⟩ := finalize_frame W s1
      refine ⟨l, ?_, ?_⟩
      · show (finalize W s1).2.hashed = _
        rw [h3, h1]
      · show (finalize W s1).2.items.map core = _
        rw [h3, ← h2]
        exact map_eq_of_forall₂ (fun a b ⟨fs, hab⟩ => by rw [hab]; rfl) h4

/-- **C48** After any calls of `AddFile` and `Finalize` on a new stash, the fingerprint is the hash of the two flags and of the items in the order
they were added. -/
theorem C48_fingerprint (W : World) (ns neg : Bool) (consts : J) (uid : Nat) (s : Stash)
    (h : History W Call.loading (Stash.init ns neg consts uid) s) :
    ∃ added : List Item, fingerPrint W s = W.sha1 (pyBool ns ++ c!":" ++ pyBool neg ++ (added.map W.repr).flatten) ∧
      s.items.map core = added.map core := by
  obtain ⟨l, h1, h2⟩ := C48_hashed W ns neg consts uid s h
  exact ⟨l, by unfold fingerPrint; rw [h1], h2⟩

end Oelint

namespace Oelint
open Spec
attribute [local instance] Sample.asciiUni

/-! ## counterexamples -/

/-- two recipes that inherit a class, an include that includes another one; the tree of C44 -/
def Sample.layer : World := Sample.world
  [ (c!"/w/a_1.bb", c!"inherit foo\nrequire x.inc\nA = \"1\"\n"),
    (c!"/w/b_1.bb", c!"B = \"1\"\ninherit foo\n"),
    (c!"/w/x.inc", c!"X = \"1\"\n"),
    (c!"/w/classes/foo.bbclass", c!"F = \"1\"\nG = \"2\"\n"),
    (c!"/w/p_1.bb", c!"require c1.inc\nrequire c2.inc\n"),
    (c!"/w/c1.inc", c!"C1 = \"1\"\n"),
    (c!"/w/c2.inc", c!"require g2.inc\n"),
    (c!"/w/g2.inc", c!"require h2.inc\n"),
    (c!"/w/h2.inc", c!"H2 = \"1\"\n"),
    (c!"/w/q.bbappend", c!"A = \"1 \\\n") ]

/-- **C39 is false for classes**: the second recipe that inherits a class is not linked to it, not even after `Finalize`,
although its item reports the class. -/
theorem C39_counterexample : ∃ s s', Added Sample.layer Sample.stash [c!"/w/a_1.bb", c!"/w/b_1.bb"] s ∧
    finalize Sample.layer s = (.ok (), s') ∧
    (∃ it ∈ s'.items, it.origin = c!"/w/b_1.bb" ∧ Reports it c!"/w/classes/foo.bbclass") ∧
    c!"/w/classes/foo.bbclass" ∉ links s' c!"/w/b_1.bb" := by
  obtain ⟨s, h1, h2⟩ := Sample.check_iff (W := Sample.layer) (ps := [c!"/w/a_1.bb", c!"/w/b_1.bb"]) (p := fun s =>
    match finalize Sample.layer s with
    | (.ok (), s') => (s'.items.any fun it => it.origin == c!"/w/b_1.bb" && it.payload.loaded.contains c!"/w/classes/foo.bbclass")
        && !(links s' c!"/w/b_1.bb").contains c!"/w/classes/foo.bbclass"
    | _ => false) (by decide +kernel)
  split at h2
  · rename_i s' hf
    simp only [Bool.and_eq_true, List.any_eq_true, beq_iff_eq, List.contains_eq_mem, decide_eq_true_eq, Bool.not_eq_true',
      decide_eq_false_iff_not] at h2
    obtain ⟨⟨it, h3, h4, h5⟩, h6⟩ := h2
    exact ⟨s, s', h1, hf, ⟨it, h3, h4, (reports_iff _ _).2 h5⟩, h6⟩
  · cases h2

/-- **C40 is false for `.bbappend`**: the file system is repaired after a failed attempt, still the second attempt
returns `[]`. -/
theorem C40_counterexample : ∃ s, addFile Sample.layer 9 c!"/w/q.bbappend" 0 none Sample.stash = (.error .stopIteration, s) ∧
    addFile (Sample.world [(c!"/w/q.bbappend", c!"A = \"1\"\n")]) 9 c!"/w/q.bbappend" 0 none s = (.ok [], s) := by
  refine ⟨(addFile Sample.layer 9 c!"/w/q.bbappend" 0 none Sample.stash).2, ?_, ?_⟩
  · have h : (addFile Sample.layer 9 c!"/w/q.bbappend" 0 none Sample.stash).1 = .error .stopIteration := by decide +kernel
    rw [← h]
  · exact addFile_seen _ _ (by decide +kernel)

/-- **C44 is false**: a file can be missing although it is reachable: the recipe requires `c1.inc` and `c2.inc`, `c2.inc`
requires `g2.inc`, `g2.inc` requires `h2.inc`. -/
theorem C44_counterexample : ∃ s s', Added Sample.layer Sample.stash [c!"/w/p_1.bb"] s ∧
    finalize Sample.layer s = (.ok (), s') ∧ Reach s c!"/w/p_1.bb" c!"/w/h2.inc" ∧ c!"/w/h2.inc" ∉ links s' c!"/w/p_1.bb" := by
  obtain ⟨s, h1, h2⟩ := Sample.check_iff (W := Sample.layer) (ps := [c!"/w/p_1.bb"]) (p := fun s =>
    match finalize Sample.layer s with
    | (.ok (), s') => (links s c!"/w/p_1.bb").contains c!"/w/c2.inc" && (links s c!"/w/c2.inc").contains c!"/w/g2.inc" &&
        (links s c!"/w/g2.inc").contains c!"/w/h2.inc" && !(links s' c!"/w/p_1.bb").contains c!"/w/h2.inc"
    | _ => false) (by decide +kernel)
  split at h2
  · rename_i s' hf
    simp only [Bool.and_eq_true, List.contains_eq_mem, decide_eq_true_eq, Bool.not_eq_true', decide_eq_false_iff_not] at h2
    exact ⟨s, s', h1, hf, .step h2.1.1.1 (.step h2.1.1.2 (.step h2.1.2 (.refl _))), h2.2⟩
  · cases h2

/-- `{"ignore": {"classes": ["foo"]}}` -/
def Sample.ignoring : Stash :=
  Stash.init false false (.dict (.cons c!"ignore" (.dict (.cons c!"classes" (.list [c!"foo"]) .nil)) .nil)) 0

/-- **C12 is false for ignored classes**: a class on the list of ignored classes is loaded when it is inherited together with
another one (it is not when it is inherited alone). -/
theorem C12_counterexample :
    let W := fun t => Sample.world [(c!"/w/a_1.bb", t), (c!"/w/classes/foo.bbclass", c!"F = \"1\"\n"),
      (c!"/w/classes/bar.bbclass", c!"B = \"1\"\n")]
    classIgnore Sample.ignoring.consts = .ok (.list [c!"foo"]) ∧
    (∃ res s', addFile (W c!"inherit foo bar\n") 9 c!"/w/a_1.bb" 0 none Sample.ignoring = (.ok res, s') ∧
      ∃ it ∈ res, Reports it c!"/w/classes/foo.bbclass") ∧
    ∃ res s', addFile (W c!"inherit foo\n") 9 c!"/w/a_1.bb" 0 none Sample.ignoring = (.ok res, s') ∧
      ∀ it ∈ res, ∀ p, ¬ Reports it p := by
  refine ⟨rfl, ?_, ?_⟩
  · obtain ⟨res, s', h, hp⟩ := Sample.okAnd_iff.1 (show Sample.okAnd (addFile (Sample.world [(c!"/w/a_1.bb", c!"inherit foo bar\n"),
      (c!"/w/classes/foo.bbclass", c!"F = \"1\"\n"), (c!"/w/classes/bar.bbclass", c!"B = \"1\"\n")]) 9 c!"/w/a_1.bb" 0 none Sample.ignoring)
      (fun res => res.any (fun it => it.payload.loaded.contains c!"/w/classes/foo.bbclass")) = true by decide +kernel)
    simp only [List.any_eq_true, List.contains_eq_mem, decide_eq_true_eq] at hp
    obtain ⟨it, h1, h2⟩ := hp
    exact ⟨res, s', h, it, h1, (reports_iff _ _).2 h2⟩
  · obtain ⟨res, s', h, hp⟩ := Sample.okAnd_iff.1 (show Sample.okAnd (addFile (Sample.world [(c!"/w/a_1.bb", c!"inherit foo\n"),
      (c!"/w/classes/foo.bbclass", c!"F = \"1\"\n"), (c!"/w/classes/bar.bbclass", c!"B = \"1\"\n")]) 9 c!"/w/a_1.bb" 0 none Sample.ignoring)
      (fun res => res.all (fun it => it.payload.loaded.isEmpty)) = true by decide +kernel)
    refine ⟨res, s', h, fun it hit p hr => ?_⟩
    have := List.all_eq_true.1 hp it hit
    have h0 : it.payload.loaded = [] := by simpa using this
    have := (reports_iff it p).1 hr
    rw [h0] at this
    cases this

/-! ## examples -/

/-- C12, C38, C39, C40, C44, C45, C46, C48: a stash with two recipes, a class and an include -/
example : ∃ s, Added Sample.layer Sample.stash [c!"/w/a_1.bb", c!"/w/b_1.bb"] s ∧
    (s.items.filter (fun i => i.origin == c!"/w/classes/foo.bbclass")).map (·.inFileLine) = [1, 2] ∧
    (s.items.map (fun i => (i.origin, i.payload.loaded))).filter (fun x => x.2 != []) =
      [(c!"/w/a_1.bb", [c!"/w/classes/foo.bbclass"]), (c!"/w/a_1.bb", [c!"/w/x.inc"]), (c!"/w/b_1.bb", [c!"/w/classes/foo.bbclass"])] ∧
    links s c!"/w/a_1.bb" = [c!"/w/classes/foo.bbclass", c!"/w/x.inc"] ∧ getRecipes s = [c!"/w/a_1.bb", c!"/w/b_1.bb"] := by
  obtain ⟨s, h1, h2⟩ := Sample.check_iff (W := Sample.layer) (ps := [c!"/w/a_1.bb", c!"/w/b_1.bb"]) (p := fun s => decide (
    (s.items.filter (fun i => i.origin == c!"/w/classes/foo.bbclass")).map (·.inFileLine) = [1, 2] ∧
    (s.items.map (fun i => (i.origin, i.payload.loaded))).filter (fun x => x.2 != []) =
      [(c!"/w/a_1.bb", [c!"/w/classes/foo.bbclass"]), (c!"/w/a_1.bb", [c!"/w/x.inc"]), (c!"/w/b_1.bb", [c!"/w/classes/foo.bbclass"])] ∧
    links s c!"/w/a_1.bb" = [c!"/w/classes/foo.bbclass", c!"/w/x.inc"] ∧ getRecipes s = [c!"/w/a_1.bb", c!"/w/b_1.bb"]))
    (by decide +kernel)
  exact ⟨s, h1, of_decide_eq_true h2⟩

end Oelint

import Verif.Lemmas.Loads
import Verif.Spec.History
/-! Invariants of histories. -/
set_option linter.unusedSectionVars false
set_option linter.unusedSimpArgs false
namespace Oelint
variable [Uni]
open Spec

theorem reports_iff (it : Item) (p : Str) : Reports it p ↔ p ∈ it.payload.loaded := by
  unfold Reports
  cases it.payload <;> simp [Payload.loaded]
  case «include» n q stmt =>
    constructor
    · rintro ⟨rfl, h⟩; exact ⟨h, rfl⟩
    · rintro ⟨h, rfl⟩; exact ⟨rfl, h⟩

/-! ## Finalize -/

theorem includedLoop_frame (W : World) (l : List (Str × List Str)) (s : Stash) :
    ∃ items, includedLoop W l s = { s with items } := by
  induction l generalizing s with
  | nil => exact ⟨s.items, rfl⟩
  | cons kv l ih =>
    obtain ⟨k, v⟩ := kv
    rw [includedLoop]
    obtain ⟨items, h⟩ := ih { s with items := s.items.map (fun x =>
      if (getItemsFor W s { filename := some k }).contains x then addIncluded v x else x) }
    exact ⟨items, h⟩

/-- the item with other `IncludedFrom` -/
def Grown (a b : Item) : Prop := ∃ fs, b = { a with includedFrom := a.includedFrom ++ fs }

theorem Grown.refl (a : Item) : Grown a a := ⟨[], by simp⟩
theorem Grown.trans {a b c : Item} (h1 : Grown a b) (h2 : Grown b c) : Grown a c := by
  obtain ⟨f, rfl⟩ := h1
  obtain ⟨g, rfl⟩ := h2
  exact ⟨f ++ g, by simp⟩

theorem includedLoop_items (W : World) (l : List (Str × List Str)) (s : Stash) :
    List.Forall₂ Grown s.items (includedLoop W l s).items := by
  have refl : ∀ (l : List Item) (f : Item → Item), (∀ x, Grown x (f x)) → List.Forall₂ Grown l (l.map f) := by
    intro l f hf
    induction l with
    | nil => exact .nil
    | cons x xs ih => exact .cons (hf x) ih
  have trans : ∀ {a b c : List Item}, List.Forall₂ Grown a b → List.Forall₂ Grown b c → List.Forall₂ Grown a c := by
    intro a b c h1 h2
    induction h1 generalizing c with
    | nil => cases h2; exact .nil
    | cons hx _ ih => cases h2 with | cons hy h2 => exact .cons (hx.trans hy) (ih h2)
  induction l generalizing s with
  | nil =>
    have := refl s.items id Grown.refl
    simpa [includedLoop] using this
  | cons kv l ih =>
    obtain ⟨k, v⟩ := kv
    rw [includedLoop]
    refine trans ?_ (ih _)
    refine refl s.items _ fun x => ?_
    split
    · exact ⟨_, rfl⟩
    · exact Grown.refl x

/-- `Finalize` changes links and `IncludedFrom` only -/
theorem finalize_frame (W : World) (s : Stash) :
    ∃ items map, (finalize W s).2 = { s with items, map } ∧ List.Forall₂ Grown s.items items := by
  have refl : List.Forall₂ Grown s.items s.items := by
    induction s.items with
    | nil => exact .nil
    | cons x xs ih => exact .cons (Grown.refl x) ih
  unfold finalize
  split
  · rename_i m _
    exact ⟨s.items, m, rfl, refl⟩
  · rename_i m _
    obtain ⟨items, h⟩ := includedLoop_frame W m { s with map := m }
    refine ⟨items, m, by rw [h], ?_⟩
    have := includedLoop_items W m { s with map := m }
    rw [h] at this
    exact this

theorem map_eq_of_forall₂ {R : Item → Item → Prop} {α} {f : Item → α} (hf : ∀ a b, R a b → f b = f a) {a b : List Item}
    (h : List.Forall₂ R a b) : b.map f = a.map f := by
  induction h with
  | nil => rfl
  | cons hx _ ih => rw [List.map_cons, List.map_cons, ih, hf _ _ hx]

/-! ## C38 -/

/-- what is visible of the items of one file -/
def proj (f : Str) (l : List Item) : List (Str × Int) :=
  (l.filter (fun i => i.origin == f)).map (fun i => (i.realRaw, i.inFileLine))

theorem proj_eq (f : Str) (l : List Item) :
    proj f l = ((l.map (fun i => (i.origin, i.realRaw, i.inFileLine))).filter (fun x => x.1 == f)).map (·.2) := by
  unfold proj
  rw [List.filter_map, List.map_map]
  rfl

theorem proj_congr {f : Str} {R : Item → Item → Prop}
    (hR : ∀ a b, R a b → b.origin = a.origin ∧ b.realRaw = a.realRaw ∧ b.inFileLine = a.inFileLine) {a b : List Item}
    (h : List.Forall₂ R a b) : proj f b = proj f a := by
  rw [proj_eq, proj_eq, map_eq_of_forall₂ (f := fun i => (i.origin, i.realRaw, i.inFileLine)) _ h]
  intro a b hab
  obtain ⟨h1, h2, h3⟩ := hR a b hab
  simp [h1, h2, h3]

theorem proj_relined {f : Str} {a b : List Item} (h : Relined a b) : proj f b = proj f a :=
  proj_congr (fun a b hab => by rw [hab]; exact ⟨rfl, rfl, rfl⟩) h

/-- the items of the file are in the list once or not at all -/
def Once (W : World) (f : Str) (l : List (Str × Int)) : Prop :=
  l = [] ∨ ∃ t, W.file f = .text t ∧ (l.map (·.1)).flatten = univNewlines t ∧ l.Pairwise (fun a b => a.2 < b.2)

/-- how loading keeps a class single -/
structure Single (W : World) (f : Str) (s s' : Stash) : Prop where
  seen : f ∈ s.seenClasses → f ∈ s'.seenClasses ∧ proj f s'.items = proj f s.items
  new : f ∉ s.seenClasses → proj f s.items = [] →
    Once W f (proj f s'.items) ∧ (f ∉ s'.seenClasses → proj f s'.items = [])

theorem Single.of_eq {W : World} {f : Str} {s s' : Stash} (h1 : s'.seenClasses = s.seenClasses)
    (h2 : proj f s'.items = proj f s.items) : Single W f s s' :=
  ⟨fun h => ⟨h1 ▸ h, h2⟩, fun _ h => by rw [h2, h]; exact ⟨Or.inl rfl, fun _ => rfl⟩⟩

theorem Single.trans {W : World} {f : Str} (a b c : Stash) (h1 : Single W f a b) (h2 : Single W f b c) : Single W f a c := by
  constructor
  · intro h
    obtain ⟨h3, h4⟩ := h1.seen h
    obtain ⟨h5, h6⟩ := h2.seen h3
    exact ⟨h5, h6.trans h4⟩
  · intro h hp
    obtain ⟨h3, h4⟩ := h1.new h hp
    by_cases hb : f ∈ b.seenClasses
    · obtain ⟨h5, h6⟩ := h2.seen hb
      rw [h6]
      exact ⟨h3, fun hn => absurd h5 hn⟩
    · exact h2.new hb (h4 hb)

theorem addFile_origin {W : World} {fuel : Nat} {path : Str} {off : Int} {forced : Option Str} {s s' : Stash}
    {res : List Item} (h : addFile W fuel path off forced s = (.ok res, s')) : ∀ it ∈ res, it.origin = abspath W.cwd path := by
  rcases addFile_cases h with rfl | ⟨t, _, _, n, ⟨ok⟩⟩
  · simp
  · intro it hit
    obtain ⟨it0, h0, rfl, c, _, hc⟩ := ok.mem hit
    exact hc.origin

theorem addFile_once {W : World} {fuel : Nat} {path : Str} {off : Int} {forced : Option Str} {s s' : Stash}
    {res : List Item} (h : addFile W fuel path off forced s = (.ok res, s')) :
    Once W (abspath W.cwd path) (proj (abspath W.cwd path) res) := by
  have ho := addFile_origin h
  have hp : proj (abspath W.cwd path) res = res.map (fun i => (i.realRaw, i.inFileLine)) := by
    unfold proj
    rw [List.filter_eq_self.2]
    intro a ha; simp [ho a ha]
  rw [hp]
  rcases addFile_cases h with rfl | ⟨t, _, ht, n, ⟨ok⟩⟩
  · exact Or.inl rfl
  · refine Or.inr ⟨t, ht, ?_, ?_⟩
    · rw [List.map_map]; exact ok.text
    · rw [List.pairwise_map]; exact ok.increasing_inFile

theorem addFile_single (W : World) (f : Str) (hf : (splitext f).2 = c!".bbclass") (fuel : Nat) (path : Str) (off : Int)
    (forced : Option Str) : M.Rel (Single W f) (addFile W fuel path off forced) := by
  induction fuel generalizing path off forced with
  | zero => exact M.Rel.raise (fun a => Single.of_eq rfl rfl) _
  | succ fuel ih =>
    intro s
    have hr : ∀ a, Single W f a a := fun a => Single.of_eq rfl rfl
    by_cases hs : alreadySeen s (abspath W.cwd path) = true
    · rw [addFile_seen off forced hs]; exact hr s
    · have hs : alreadySeen s (abspath W.cwd path) = false := by simpa using hs
      have hmap : ∀ (s : Stash) m, Single W f s { s with map := m } := fun s m => Single.of_eq rfl rfl
      have hstep := addFile_step (W := W) Single.trans off forced hs
        (fun o ns neg => getItems_rel hr Single.trans (fun s => Single.of_eq rfl rfl) W _ (fun p o f => ih p o f) o ns neg)
        (fun s => hmap s _)
        (crossLink_rel hr Single.trans (fun s l h => Single.of_eq rfl (proj_relined h)) (fun s k x => hmap s _) _)
        (addDistroMachine_rel hr Single.trans (fun s db => Single.of_eq rfl rfl) W _)
      by_cases hfile : abspath W.cwd path = f
      · -- the class itself
        have hns : f ∉ s.seenClasses := by
          intro h
          unfold alreadySeen at hs
          rw [hfile] at hs
          simp [h] at hs
        have hm : f ∈ (markSeen s f).seenClasses := by simp [markSeen, hf]
        rw [hfile] at hstep
        refine ⟨fun h => absurd h hns, fun _ hp => ?_⟩
        rcases hstep with ⟨e, s', he, hR⟩ | ⟨res, s4, he, hR⟩
        · obtain ⟨h1, h2⟩ := hR.seen hm
          rw [he]
          have h3 : proj f s'.items = [] := h2.trans hp
          exact ⟨Or.inl h3, fun _ => h3⟩
        · obtain ⟨h1, h2⟩ := hR.seen hm
          have h3 : proj f s4.items = [] := h2.trans hp
          have ho := addFile_once he
          rw [he]
          have h4 : proj f (commitItems W res s4).items = proj f res := by
            unfold commitItems
            simp only
            unfold proj at h3 ⊢
            rw [List.filter_append, List.map_append, h3, List.nil_append]
          rw [h4]
          rw [hfile] at ho
          exact ⟨ho, fun h => absurd h1 h⟩
      · -- another file
        have hmark : Single W f s (markSeen s (abspath W.cwd path)) := by
          have hseen : f ∈ (markSeen s (abspath W.cwd path)).seenClasses ↔ f ∈ s.seenClasses := by
            unfold markSeen
            simp only
            split
            · simp; intro h; exact absurd h.symm hfile
            · exact Iff.rfl
          exact ⟨fun h => ⟨hseen.2 h, rfl⟩, fun _ hp => ⟨Or.inl hp, fun _ => hp⟩⟩
        rcases hstep with ⟨e, s', he, hR⟩ | ⟨res, s4, he, hR⟩
        · rw [he]; exact Single.trans _ _ _ hmark hR
        · rw [he]
          refine Single.trans _ _ _ hmark (Single.trans _ _ _ hR ?_)
          refine Single.of_eq rfl ?_
          have ho := addFile_origin he
          unfold commitItems proj
          simp only
          have hn : res.filter (fun i => i.origin == f) = [] := by
            rw [List.filter_eq_nil_iff]
            intro a ha h
            exact hfile ((ho a ha).symm.trans (by simpa using h))
          rw [List.filter_append, hn, List.append_nil]

/-! ## what is known after every history of `AddFile` and `Finalize` -/

theorem finalize_single (W : World) (f : Str) (s : Stash) : Single W f s (finalize W s).2 := by
  obtain ⟨items, map, h, hg⟩ := finalize_frame W s
  rw [h]
  refine Single.of_eq rfl (proj_congr ?_ hg)
  rintro a b ⟨fs, rfl⟩
  exact ⟨rfl, rfl, rfl⟩

theorem history_single {W : World} {s s' : Stash} (h : History W Call.loading s s') {f : Str}
    (hf : (splitext f).2 = c!".bbclass") : Single W f s s' := by
  induction h with
  | nil => exact Single.of_eq rfl rfl
  | snoc h depth c hc ih =>
    refine Single.trans _ _ _ ih ?_
    cases c with
    | addFile p o fo => exact addFile_single W f hf depth p o fo _
    | append l => cases hc
    | remove l => cases hc
    | finalize => exact finalize_single W f _

/-! ## C48 -/

/-- the items added and what they contribute to the fingerprint -/
def Hashes (W : World) (s s' : Stash) : Prop :=
  ∃ added : List Item, s'.hashed = s.hashed ++ (added.map W.repr).flatten ∧ Relined (s.items ++ added) s'.items

theorem hashes_step (W : World) : StepRel W (Hashes W) := by
  have keep : ∀ s s' : Stash, s'.hashed = s.hashed → Relined s.items s'.items → Hashes W s s' :=
    fun s s' h1 h2 => ⟨[], by simpa using h1, by simpa using h2⟩
  constructor
  · exact fun a => keep a a rfl (Relined.refl _)
  · rintro a b c ⟨l1, h1, h2⟩ ⟨l2, h3, h4⟩
    refine ⟨l1 ++ l2, by rw [h3, h1]; simp, ?_⟩
    rw [← List.append_assoc]
    exact Relined.trans (Relined.append h2 (Relined.refl _)) h4
  · exact fun s => keep _ _ rfl (Relined.refl _)
  · exact fun s f => keep _ _ rfl (Relined.refl _)
  · exact fun s k x => keep _ _ rfl (Relined.refl _)
  · exact fun s k _ => keep _ _ rfl (Relined.refl _)
  · exact fun s l h => keep _ _ rfl h
  · exact fun s db => keep _ _ rfl (Relined.refl _)
  · exact fun s l => ⟨l, rfl, Relined.refl _⟩

/-! ## seen files -/

/-- the sets of seen files only grow; a class is also a seen file -/
def SeenGrow (s s' : Stash) : Prop :=
  (∀ f ∈ s.seenFiles, f ∈ s'.seenFiles) ∧ (∀ f ∈ s.seenClasses, f ∈ s'.seenClasses)

theorem seenGrow_step (W : World) : StepRel W SeenGrow := by
  constructor
  · exact fun a => ⟨fun _ h => h, fun _ h => h⟩
  · exact fun a b c h1 h2 => ⟨fun f h => h2.1 f (h1.1 f h), fun f h => h2.2 f (h1.2 f h)⟩
  · exact fun s => ⟨fun _ h => h, fun _ h => h⟩
  · intro s f
    constructor <;> intro g hg <;> unfold markSeen <;> simp only <;> split <;> simp [hg]
  · exact fun s k x => ⟨fun _ h => h, fun _ h => h⟩
  · exact fun s k _ => ⟨fun _ h => h, fun _ h => h⟩
  · exact fun s l h => ⟨fun _ h => h, fun _ h => h⟩
  · exact fun s db => ⟨fun _ h => h, fun _ h => h⟩
  · exact fun s l => ⟨fun _ h => h, fun _ h => h⟩

/-- only classes are in the list of classes -/
def ClassesOnly (s : Stash) : Prop := ∀ f ∈ s.seenClasses, (splitext f).2 = c!".bbclass"

theorem classesOnly_step (W : World) : StepRel W (fun s s' => ClassesOnly s → ClassesOnly s') := by
  constructor
  · exact fun a h => h
  · exact fun a b c h1 h2 h => h2 (h1 h)
  · exact fun s h => h
  · intro s f h g hg
    unfold markSeen at hg
    simp only at hg
    split at hg
    · rename_i hf
      rcases List.mem_append.1 hg with hg | hg
      · exact h g hg
      · simp at hg; subst hg; simpa using hf
    · exact h g hg
  · exact fun s k x h => h
  · exact fun s k _ h => h
  · exact fun s l _ h => h
  · exact fun s db h => h
  · exact fun s l h => h

theorem removeItems_frame (l : List Item) (s : Stash) : ∃ items, (removeItems l s).2 = { s with items } := by
  induction l generalizing s with
  | nil => exact ⟨s.items, rfl⟩
  | cons x xs ih =>
    have : removeItems (x :: xs) s = match removeOne x s.items with
      | none => (.error .valueError, s)
      | some l => removeItems xs { s with items := l } := rfl
    rw [this]
    split
    · exact ⟨s.items, rfl⟩
    · obtain ⟨items, h⟩ := ih { s with items := _ }
      exact ⟨items, h⟩

/-- what holds of every call holds of a history -/
theorem history_rel {W : World} {P : Call → Prop} {R : Stash → Stash → Prop} (hr : ∀ a, R a a)
    (ht : ∀ a b c, R a b → R b c → R a c) (hc : ∀ d c s, P c → R s (Call.after W d c s)) {s s' : Stash}
    (h : History W P s s') : R s s' := by
  induction h with
  | nil => exact hr _
  | snoc h depth c hp ih => exact ht _ _ _ ih (hc _ _ _ hp)

/-- a relation that does not look at items and links -/
theorem history_frame {W : World} {P : Call → Prop} {R : Stash → Stash → Prop} (h : StepRel W R)
    (hi : ∀ s items, R s { s with items }) (hm : ∀ s map, R s { s with map }) {s s' : Stash}
    (hh : History W P s s') : R s s' := by
  refine history_rel h.refl h.trans ?_ hh
  intro d c s _
  cases c with
  | addFile p o fo => exact addFile_rel h d p o fo s
  | append l => exact hi s _
  | remove l =>
    obtain ⟨items, he⟩ := removeItems_frame l s
    simp only [Call.after, he]
    exact hi s items
  | finalize =>
    obtain ⟨items, map, he, _⟩ := finalize_frame W s
    simp only [Call.after, he]
    exact h.trans _ _ _ (hm s map) (hi { s with map } items)

theorem history_seenGrow {W : World} {P : Call → Prop} {s s' : Stash} (h : History W P s s') : SeenGrow s s' :=
  history_frame (seenGrow_step W) (fun _ _ => ⟨fun _ h => h, fun _ h => h⟩) (fun _ _ => ⟨fun _ h => h, fun _ h => h⟩) h

theorem history_classesOnly {W : World} {P : Call → Prop} {s s' : Stash} (h : History W P s s') (hs : ClassesOnly s) :
    ClassesOnly s' :=
  history_frame (classesOnly_step W) (fun _ _ h => h) (fun _ _ h => h) h hs

theorem added_history {W : World} {s s' : Stash} {ps : List Str} (h : Added W s ps s') : History W Call.loading s s' := by
  induction h with
  | nil => exact .nil
  | @snoc s1 s2 ps p depth res h hp ih =>
    have : s2 = (Call.addFile p 0 none).after W depth s1 := by
      show s2 = (addFile W depth p 0 none s1).2
      rw [hp]
    rw [this]
    exact .snoc ih depth (.addFile p 0 none) True.intro

theorem alreadySeen_of_seen {s : Stash} {f : Str} (h : f ∈ s.seenFiles)
    (hc : (splitext f).2 = c!".bbclass" → f ∈ s.seenClasses) (he : (splitext f).2 ∉ [c!".inc", c!".bb", c!".conf"]) :
    alreadySeen s f = true := by
  unfold alreadySeen
  by_cases hb : (splitext f).2 = c!".bbclass"
  · simp [hc hb]
  · simp only [List.mem_cons, List.not_mem_nil, or_false, not_or] at he
    simp [h, hb, he.1, he.2.1, he.2.2]

theorem seen_of_alreadySeen {s : Stash} (hc : ClassesOnly s) {f : Str} (h : alreadySeen s f = true) :
    (f ∈ s.seenFiles ∨ f ∈ s.seenClasses) ∧ (splitext f).2 ∉ [c!".inc", c!".bb", c!".conf"] := by
  unfold alreadySeen at h
  simp only [Bool.or_eq_true, Bool.and_eq_true, List.contains_eq_mem, decide_eq_true_eq, Bool.not_eq_true',
    decide_eq_false_iff_not] at h
  rcases h with ⟨h1, h2⟩ | h
  · refine ⟨Or.inl h1, fun hh => h2 ?_⟩
    simp only [List.mem_cons, List.not_mem_nil, or_false] at hh ⊢
    rcases hh with h | h | h <;> simp [h]
  · refine ⟨Or.inr h, ?_⟩
    rw [hc f h]
    decide

end Oelint

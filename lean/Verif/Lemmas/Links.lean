import Verif.Lemmas.History
/-! The link map. -/
set_option linter.unusedSectionVars false
set_option linter.unusedSimpArgs false
namespace Oelint
variable [Uni]
open Spec

/-- the files in the link map -/
def keys (s : Stash) : List Str := s.map.map (·.1)

theorem mem_links {s : Stash} {k v : Str} : v ∈ links s k ↔ ∃ fs, dget k s.map = some fs ∧ v ∈ fs := by
  unfold links
  cases dget k s.map <;> simp

theorem mapAppend_keys {m : List (Str × List Str)} {k v j : Str} :
    j ∈ (mapAppend m k v).map (·.1) ↔ j = k ∨ j ∈ m.map (·.1) := dset_keys_mem

theorem links_mapAppend (s : Stash) (k v j : Str) :
    links { s with map := mapAppend s.map k v } j = if j = k then links s k ++ [v] else links s j := by
  unfold links mapAppend
  simp only
  rw [dget_dset]
  split <;> rfl

theorem links_dset_nil (s : Stash) (k j : Str) (h : dhas k s.map = false) :
    links { s with map := dset k [] s.map } j = links s j := by
  unfold links
  simp only
  rw [dget_dset]
  split
  · rename_i h'
    subst h'
    unfold dhas at h
    cases hd : dget j s.map with
    | none => rfl
    | some x => rw [hd] at h; cases h
  · rfl

/-- links and files in the map stay -/
def LinksGrow (s s' : Stash) : Prop :=
  (∀ k ∈ keys s, k ∈ keys s') ∧ ∀ k v, v ∈ links s k → v ∈ links s' k

theorem linksGrow_step (W : World) : StepRel W LinksGrow := by
  constructor
  · exact fun a => ⟨fun _ h => h, fun _ _ h => h⟩
  · exact fun a b c h1 h2 => ⟨fun k h => h2.1 k (h1.1 k h), fun k v h => h2.2 k v (h1.2 k v h)⟩
  · exact fun s => ⟨fun _ h => h, fun _ _ h => h⟩
  · exact fun s f => ⟨fun _ h => h, fun _ _ h => h⟩
  · refine fun s k x => ⟨fun _ h => mapAppend_keys.2 (Or.inr h), fun j v h => ?_⟩
    rw [links_mapAppend]
    split
    · rename_i h'; subst h'; simp [h]
    · exact h
  · refine fun s k hk => ⟨fun _ h => dset_keys_mem.2 (Or.inr h), fun j v h => ?_⟩
    rw [links_dset_nil _ _ _ hk]; exact h
  · exact fun s l h => ⟨fun _ h => h, fun _ _ h => h⟩
  · exact fun s db => ⟨fun _ h => h, fun _ _ h => h⟩
  · exact fun s l => ⟨fun _ h => h, fun _ _ h => h⟩

theorem enterMap_key (s : Stash) (file : Str) (forced : Option Str) :
    file ∈ keys { s with map := enterMap s.map file forced } := by
  have h1 : file ∈ (if dhas file s.map then s.map else dset file [] s.map).map (·.1) := by
    split
    · rename_i h
      unfold dhas at h
      exact dget_isSome_iff.1 h
    · exact dset_keys_mem.2 (Or.inl rfl)
  unfold keys enterMap
  simp only
  split
  · split
    · exact h1
    · exact mapAppend_keys.2 (Or.inr h1)
  · exact h1

theorem enterMap_keys {s : Stash} {file : Str} {forced : Option Str} {k : Str}
    (h : k ∈ keys { s with map := enterMap s.map file forced }) : k ∈ keys s ∨ k = file ∨ forced = some k := by
  have h1 : ∀ k, k ∈ (if dhas file s.map then s.map else dset file [] s.map).map (·.1) → k ∈ keys s ∨ k = file := by
    intro k hk
    split at hk
    · exact Or.inl hk
    · rcases dset_keys_mem.1 hk with hk | hk
      · exact Or.inr hk
      · exact Or.inl hk
  unfold keys enterMap at h
  simp only at h
  split at h
  · rename_i f
    split at h
    · rcases h1 k h with h | h
      · exact Or.inl h
      · exact Or.inr (Or.inl h)
    · rcases mapAppend_keys.1 h with h | h
      · exact Or.inr (Or.inr (by rw [h]))
      · rcases h1 k h with h | h
        · exact Or.inl h
        · exact Or.inr (Or.inl h)
  · rcases h1 k h with h | h
    · exact Or.inl h
    · exact Or.inr (Or.inl h)

theorem enterMap_link (s : Stash) (file f : Str) (hf : f ≠ []) :
    file ∈ links { s with map := enterMap s.map file (some f) } f := by
  unfold enterMap
  simp only
  rw [if_neg (by simpa using hf)]
  have := links_mapAppend { s with map := if dhas file s.map then s.map else dset file [] s.map } f file f
  simp only at this
  rw [this]
  simp

/-- the steps after the items of a file are known, except for the links -/
structure Quiet (s s' : Stash) : Prop where
  files : s'.seenFiles = s.seenFiles
  classes : s'.seenClasses = s.seenClasses
  keys : ∀ k ∈ keys s, k ∈ Oelint.keys s'
  items : Relined s.items s'.items

theorem Quiet.refl (s : Stash) : Quiet s s := ⟨rfl, rfl, fun _ h => h, Relined.refl _⟩
theorem Quiet.trans (a b c : Stash) (h1 : Quiet a b) (h2 : Quiet b c) : Quiet a c :=
  ⟨h2.files.trans h1.files, h2.classes.trans h1.classes, fun k h => h2.keys k (h1.keys k h), Relined.trans h1.items h2.items⟩
theorem quiet_link (s : Stash) (k x : Str) : Quiet s { s with map := mapAppend s.map k x } :=
  ⟨rfl, rfl, fun _ h => mapAppend_keys.2 (Or.inr h), Relined.refl _⟩
theorem quiet_enter (s : Stash) (k : Str) : Quiet s { s with map := dset k [] s.map } :=
  ⟨rfl, rfl, fun _ h => dset_keys_mem.2 (Or.inr h), Relined.refl _⟩
theorem quiet_reline (s : Stash) (l : List Item) (h : Relined s.items l) : Quiet s { s with items := l } :=
  ⟨rfl, rfl, fun _ h => h, h⟩
theorem quiet_consts (s : Stash) (db : J) : Quiet s { s with consts := db } := ⟨rfl, rfl, fun _ h => h, Relined.refl _⟩

theorem quiet_enterMap (s : Stash) (file : Str) (forced : Option Str) :
    Quiet s { s with map := enterMap s.map file forced } :=
  enterMap_rel Quiet.refl Quiet.trans quiet_link (fun s k _ => quiet_enter s k) file forced s

theorem quiet_crossLink (file : Str) (its : List Item) : M.Rel Quiet (crossLink file its) :=
  crossLink_rel Quiet.refl Quiet.trans quiet_reline quiet_link file its

theorem quiet_distro (W : World) (file : Str) : M.Rel Quiet (addDistroMachine W file) :=
  addDistroMachine_rel Quiet.refl Quiet.trans quiet_consts W file

theorem AddOk.quiet {W : World} {fuel : Nat} {file : Str} {off : Int} {forced : Option Str} {s s' : Stash}
    {res : List Item} (ok : AddOk W fuel file off forced s s' res) :
    Quiet { ok.s1 with map := enterMap ok.s1.map file forced } ok.s4 := by
  have h1 := quiet_crossLink file ok.its { ok.s1 with map := enterMap ok.s1.map file forced }
  rw [ok.cross] at h1
  have h2 := quiet_distro W file ok.s3
  rw [ok.distro] at h2
  exact Quiet.trans _ _ _ h1 h2

theorem Relined.mem {a b : List Item} (h : Relined a b) {x : Item} (hx : x ∈ a) : ∃ n, { x with line := n } ∈ b := by
  induction h with
  | nil => cases hx
  | @cons a b l l' hab _ ih =>
    rcases List.mem_cons.1 hx with rfl | hx
    · exact ⟨b.line, by rw [← hab]; simp⟩
    · obtain ⟨n, hn⟩ := ih hx
      exact ⟨n, by simp [hn]⟩

theorem Relined.mem_right {a b : List Item} (h : Relined a b) {y : Item} (hy : y ∈ b) :
    ∃ x ∈ a, y = { x with line := y.line } := forall₂_mem_right h hy

/-- the items stay, but for their lines -/
theorem addFile_items {W : World} (fuel : Nat) (path : Str) (off : Int) (forced : Option Str) (s : Stash) {x : Item}
    (hx : x ∈ s.items) : ∃ n, { x with line := n } ∈ (addFile W fuel path off forced s).2.items := by
  obtain ⟨added, _, h⟩ := addFile_rel (hashes_step W) fuel path off forced s
  exact h.mem (List.mem_append_left _ hx)

theorem addFile_linksGrow {W : World} (fuel : Nat) (path : Str) (off : Int) (forced : Option Str) (s : Stash) :
    LinksGrow s (addFile W fuel path off forced s).2 := addFile_rel (linksGrow_step W) fuel path off forced s

/-! ## files seen are files in the map -/

/-- the text of the file is in the list, in the items with that origin -/
def InStash (l : List Item) (f t : Str) : Prop :=
  ∃ sub : List Item, sub.Sublist l ∧ (∀ x ∈ sub, x.origin = f) ∧ (sub.map (·.realRaw)).flatten = univNewlines t

theorem Relined.sublist {a b sub : List Item} (h : Relined a b) (hs : sub.Sublist a) : ∃ sub', sub'.Sublist b ∧ Relined sub sub' := by
  induction h generalizing sub with
  | nil => cases hs; exact ⟨[], List.Sublist.slnil, Relined.refl _⟩
  | @cons x y l l' hxy _ ih =>
    cases hs with
    | cons _ hs =>
      obtain ⟨sub', h1, h2⟩ := ih hs
      exact ⟨sub', h1.cons _, h2⟩
    | cons_cons _ hs =>
      obtain ⟨sub', h1, h2⟩ := ih hs
      exact ⟨y :: sub', h1.cons_cons _, List.Forall₂.cons hxy h2⟩

theorem InStash.relined {a b : List Item} {f t : Str} (h : Relined a b) (hi : InStash a f t) : InStash b f t := by
  obtain ⟨sub, h1, h2, h3⟩ := hi
  obtain ⟨sub', h4, h5⟩ := h.sublist h1
  refine ⟨sub', h4, ?_, ?_⟩
  · intro x hx
    obtain ⟨y, hy, he⟩ := h5.mem_right hx
    rw [he]; exact h2 y hy
  · rw [h5.map_eq (f := (·.realRaw)) (fun _ _ => rfl)]; exact h3

/-- the file is in the map and its text in the stash -/
def Done (W : World) (s : Stash) (f : Str) : Prop := f ∈ keys s ∧ ∀ t, W.file f = .text t → InStash s.items f t

theorem Done.grow {W : World} {s s' : Stash} {f : Str} (h1 : LinksGrow s s') (h2 : Hashes W s s') (h : Done W s f) :
    Done W s' f := by
  obtain ⟨added, _, hr⟩ := h2
  refine ⟨h1.1 f h.1, fun t ht => ?_⟩
  obtain ⟨sub, h3, h4⟩ := h.2 t ht
  exact InStash.relined hr ⟨sub, h3.trans (List.sublist_append_left _ _), h4⟩

theorem Done.quiet {W : World} {s s' : Stash} {f : Str} (q : Quiet s s') (h : Done W s f) : Done W s' f :=
  ⟨q.keys f h.1, fun t ht => (h.2 t ht).relined q.items⟩

theorem Done.commit {W : World} {s : Stash} {f : Str} (l : List Item) (h : Done W s f) : Done W (commitItems W l s) f :=
  ⟨h.1, fun t ht => by
    obtain ⟨sub, h3, h4⟩ := h.2 t ht
    exact ⟨sub, h3.trans (List.sublist_append_left _ _), h4⟩⟩

/-- files seen and files loaded are in the map and in the stash, except those being loaded -/
structure Keyed (W : World) (P : List Str) (s : Stash) : Prop where
  files : ∀ f ∈ s.seenFiles, f ∈ P ∨ Done W s f
  classes : ∀ f ∈ s.seenClasses, f ∈ P ∨ Done W s f
  items : ∀ it ∈ s.items, ∀ p ∈ it.payload.loaded, abspath W.cwd p ∈ P ∨ Done W s (abspath W.cwd p)

theorem Keyed.quiet {W : World} {P : List Str} {s s' : Stash} (h : Keyed W P s) (q : Quiet s s') : Keyed W P s' := by
  constructor
  · intro f hf
    rw [q.files] at hf
    exact (h.files f hf).imp id (Done.quiet q)
  · intro f hf
    rw [q.classes] at hf
    exact (h.classes f hf).imp id (Done.quiet q)
  · intro it hit p hp
    obtain ⟨x, hx, he⟩ := q.items.mem_right hit
    rw [he] at hp
    exact (h.items x hx p hp).imp id (Done.quiet q)

theorem addFile_keyed (W : World) (fuel : Nat) (path : Str) (off : Int) (forced : Option Str) (s s' : Stash)
    (res : List Item) (h : addFile W fuel path off forced s = (.ok res, s')) (P : List Str) (hk : Keyed W P s) :
    Keyed W P s' ∧ (abspath W.cwd path ∈ P ∨ Done W s' (abspath W.cwd path)) := by
  induction fuel generalizing path off forced s s' res P with
  | zero => cases h
  | succ fuel ih =>
    rcases addFile_ok W h with ⟨hs, rfl, rfl⟩ | ⟨hs, ⟨ok⟩⟩
    · refine ⟨hk, ?_⟩
      unfold alreadySeen at hs
      simp only [Bool.or_eq_true, Bool.and_eq_true, List.contains_iff_mem] at hs
      rcases hs with ⟨hs, _⟩ | hs
      · exact hk.files _ hs
      · exact hk.classes _ hs
    · have hmark : Keyed W (abspath W.cwd path :: P) (markSeen s (abspath W.cwd path)) := by
        constructor
        · intro f hf
          unfold markSeen at hf
          simp only at hf
          have : f = abspath W.cwd path ∨ f ∈ s.seenFiles := by
            split at hf
            · exact Or.inr hf
            · rcases List.mem_append.1 hf with hf | hf
              · exact Or.inr hf
              · exact Or.inl (by simpa using hf)
          rcases this with rfl | hf
          · exact Or.inl (by simp)
          · exact (hk.files f hf).imp (List.mem_cons_of_mem _) id
        · intro f hf
          unfold markSeen at hf
          simp only at hf
          have : f = abspath W.cwd path ∨ f ∈ s.seenClasses := by
            split at hf
            · rcases List.mem_append.1 hf with hf | hf
              · exact Or.inr hf
              · exact Or.inl (by simpa using hf)
            · exact Or.inr hf
          rcases this with rfl | hf
          · exact Or.inl (by simp)
          · exact (hk.classes f hf).imp (List.mem_cons_of_mem _) id
        · intro it hit p hp
          exact (hk.items it hit p hp).imp (List.mem_cons_of_mem _) id
      obtain ⟨ps, hps, hm⟩ := itemsLoop_loads W _ _ _ _ _ _ _ _ _ ok.loop
      -- the loads
      have key : ∀ {a ps b}, Loads (addFile W fuel) (abspath W.cwd path) a ps b → Keyed W (abspath W.cwd path :: P) a →
          Keyed W (abspath W.cwd path :: P) b ∧ (∀ k, Done W a k → Done W b k) ∧
          ∀ p ∈ ps, abspath W.cwd p ∈ abspath W.cwd path :: P ∨ Done W b (abspath W.cwd p) := by
        intro a ps b hl
        induction hl with
        | done => exact fun h => ⟨h, fun _ h => h, by simp⟩
        | uid _ ih' =>
          intro h
          exact ih' ⟨h.files, h.classes, h.items⟩
        | @load a p off tmp a1 ps b hadd _ ih' =>
          intro h
          obtain ⟨h1, h2⟩ := ih _ _ _ _ _ _ hadd _ h
          obtain ⟨h3, h4, h5⟩ := ih' h1
          have hg := addFile_linksGrow (W := W) fuel p off (some (abspath W.cwd path)) a
          have hh := addFile_rel (hashes_step W) fuel p off (some (abspath W.cwd path)) a
          rw [hadd] at hg hh
          refine ⟨h3, fun k hk => h4 k (hk.grow hg hh), ?_⟩
          intro q hq
          rcases List.mem_cons.1 hq with rfl | hq
          · exact h2.imp id (h4 _)
          · exact h5 q hq
      obtain ⟨h1, h2, h3⟩ := key hps hmark
      have h4 : Keyed W (abspath W.cwd path :: P) { ok.s1 with map := enterMap ok.s1.map (abspath W.cwd path) forced } :=
        h1.quiet (quiet_enterMap _ _ _)
      have h5 := h4.quiet ok.quiet
      have hres : ∀ t, W.file (abspath W.cwd path) = .text t → InStash res (abspath W.cwd path) t := by
        intro t ht
        obtain ⟨n, ⟨fok⟩⟩ := addFile_file h hs ht
        exact ⟨res, List.Sublist.refl _, addFile_origin h, fok.text⟩
      have hfile : Done W (commitItems W res ok.s4) (abspath W.cwd path) := by
        refine ⟨ok.quiet.keys _ (enterMap_key _ _ _), fun t ht => ?_⟩
        obtain ⟨sub, h6, h7⟩ := hres t ht
        exact ⟨sub, h6.trans (List.sublist_append_right _ _), h7⟩
      have drop : ∀ f, f ∈ abspath W.cwd path :: P ∨ Done W ok.s4 f → f ∈ P ∨ Done W (commitItems W res ok.s4) f := by
        rintro f (hf | hf)
        · rcases List.mem_cons.1 hf with rfl | hf
          · exact Or.inr hfile
          · exact Or.inl hf
        · exact Or.inr (hf.commit _)
      suffices h : Keyed W P (commitItems W res ok.s4) ∧
          (abspath W.cwd path ∈ P ∨ Done W (commitItems W res ok.s4) (abspath W.cwd path)) by rw [← ok.final] at h; exact h
      refine ⟨⟨fun f hf => drop f (h5.files f hf), fun f hf => drop f (h5.classes f hf), ?_⟩, Or.inr hfile⟩
      intro it hit p hp
      rcases List.mem_append.1 hit with hit | hit
      · exact drop _ (h5.items it hit p hp)
      · obtain ⟨mx, _, hres, _⟩ := crossLink_post _ _ _ _ _ ok.cross
        rw [hres] at hit
        obtain ⟨x, hx, rfl⟩ := List.mem_map.1 hit
        have := h3 p ((hm p).2 ⟨x, hx, hp⟩)
        exact drop _ (this.imp id fun h => (h.quiet (quiet_enterMap _ _ _)).quiet ok.quiet)

/-! ## files in the map were added -/

theorem linkAppend_keys (file : Str) (l : List Str) (mx : Int) (s : Stash) (hl : ∀ x ∈ l, x ∈ keys s) :
    ∀ k ∈ keys (linkAppend file l mx s).2, k ∈ keys s := by
  induction l generalizing mx s with
  | nil => exact fun _ h => h
  | cons x xs ih =>
    rw [linkAppend_cons]
    split
    · exact fun _ h => h
    · exact ih _ _ (fun y hy => hl y (by simp [hy]))
    · intro k hk
      have := ih _ { s with map := mapAppend s.map x file } (fun y hy => mapAppend_keys.2 (Or.inr (hl y (by simp [hy])))) k hk
      rcases mapAppend_keys.1 this with rfl | h
      · exact hl k (by simp)
      · exact h

theorem crossLink_keys (file : Str) (its : List Item) (s : Stash) (hf : file ∈ keys s) :
    ∀ k ∈ keys (crossLink file its s).2, k ∈ keys s := by
  unfold crossLink
  split
  · have h := linkAppend_keys file (s.map.map (·.1)) 0 s (fun x hx => by unfold keys; exact hx)
    intro k hk
    apply h k
    simp only [M.bind_def, M.get] at hk
    split at hk <;> rename_i heq <;> rw [heq] <;> exact hk
  · split
    · have h := linkRecipe_rel (R := fun s s' => file ∈ keys s → ((∀ k ∈ keys s', k ∈ keys s) ∧ file ∈ keys s'))
        (fun a b c h1 h2 h => by
          obtain ⟨h3, h4⟩ := h1 h
          obtain ⟨h5, h6⟩ := h2 h4
          exact ⟨fun k hk => h3 k (h5 k hk), h6⟩) file (replaceAll c!".bb" [] (basename file)) (maxLine its)
        (fun s l _ h => ⟨fun _ h => h, h⟩)
        (fun s x h => ⟨fun k hk => by
          rcases mapAppend_keys.1 hk with rfl | hk
          · exact h
          · exact hk, mapAppend_keys.2 (Or.inr h)⟩) [] s.items s (Relined.refl _) hf
      intro k hk
      apply h.1 k
      simp only [M.bind_def, M.get] at hk
      split at hk <;> rename_i heq <;> rw [heq] <;> exact hk
    · exact fun _ h => h

theorem addDistroMachine_keys (W : World) (file : Str) (s : Stash) : (addDistroMachine W file s).2.map = s.map :=
  addDistroMachine_rel (R := fun s s' => s'.map = s.map) (fun _ => rfl) (fun _ _ _ h1 h2 => h2.trans h1) (fun _ _ => rfl) W file s

/-- some item has loaded the file -/
def LoadedBy (W : World) (l : List Item) (k : Str) : Prop := ∃ it ∈ l, ∃ p ∈ it.payload.loaded, abspath W.cwd p = k

theorem LoadedBy.relined {W : World} {a b : List Item} (h : Relined a b) {k : Str} (hk : LoadedBy W a k) : LoadedBy W b k := by
  obtain ⟨it, hit, p, hp, he⟩ := hk
  obtain ⟨n, hn⟩ := h.mem hit
  exact ⟨_, hn, p, hp, he⟩

theorem addFile_upper (W : World) (fuel : Nat) (path : Str) (off : Int) (forced : Option Str) (s s' : Stash)
    (res : List Item) (h : addFile W fuel path off forced s = (.ok res, s')) :
    ∀ k ∈ keys s', k ∈ keys s ∨ k = abspath W.cwd path ∨ forced = some k ∨ LoadedBy W s'.items k := by
  induction fuel generalizing path off forced s s' res with
  | zero => cases h
  | succ fuel ih =>
    rcases addFile_ok W h with ⟨hs, rfl, rfl⟩ | ⟨hs, ⟨ok⟩⟩
    · exact fun k hk => Or.inl hk
    · obtain ⟨ps, hps, hm⟩ := itemsLoop_loads W _ _ _ _ _ _ _ _ _ ok.loop
      have key : ∀ {a ps b}, Loads (addFile W fuel) (abspath W.cwd path) a ps b →
          ∀ k ∈ keys b, k ∈ keys a ∨ k = abspath W.cwd path ∨ LoadedBy W b.items k ∨ ∃ p ∈ ps, abspath W.cwd p = k := by
        intro a ps b hl
        induction hl with
        | done => exact fun k h => Or.inl h
        | uid _ ih' => exact fun k h => ih' k h
        | @load a p off tmp a1 ps b hadd hl' ih' =>
          intro k hk
          rcases ih' k hk with h | h | h | ⟨q, hq, h⟩
          · rcases ih _ _ _ _ _ _ hadd k h with h | h | h | h
            · exact Or.inl h
            · exact Or.inr (Or.inr (Or.inr ⟨p, by simp, h.symm⟩))
            · exact Or.inr (Or.inl (Option.some.inj h).symm)
            · refine Or.inr (Or.inr (Or.inl ?_))
              have : Hashes W a1 b := hl'.rel (hashes_step W).refl (hashes_step W).trans (hashes_step W).uid
                (fun p o f s tmp s' hh => by
                  have := addFile_rel (hashes_step W) fuel p o f s
                  rw [hh] at this; exact this)
              obtain ⟨added, _, hr⟩ := this
              refine LoadedBy.relined hr ?_
              obtain ⟨it, hit, rest⟩ := h
              exact ⟨it, List.mem_append_left _ hit, rest⟩
          · exact Or.inr (Or.inl h)
          · exact Or.inr (Or.inr (Or.inl h))
          · exact Or.inr (Or.inr (Or.inr ⟨q, by simp [hq], h⟩))
      suffices h : ∀ k ∈ keys (commitItems W res ok.s4), k ∈ keys s ∨ k = abspath W.cwd path ∨ forced = some k ∨
          LoadedBy W (commitItems W res ok.s4).items k by rw [← ok.final] at h; exact h
      intro k hk
      have hk4 : k ∈ keys ok.s4 := hk
      have hk3 : k ∈ keys ok.s3 := by
        have := addDistroMachine_keys W (abspath W.cwd path) ok.s3
        rw [ok.distro] at this
        unfold keys at hk4 ⊢
        rw [this] at hk4; exact hk4
      have hk2 := crossLink_keys (abspath W.cwd path) ok.its { ok.s1 with map := enterMap ok.s1.map (abspath W.cwd path) forced }
        (enterMap_key _ _ _) k (by rw [ok.cross]; exact hk3)
      have hq : Relined ok.s1.items ok.s4.items := ok.quiet.items
      rcases enterMap_keys hk2 with hk1 | h | h
      · rcases key hps k hk1 with h | h | h | ⟨p, hp, h⟩
        · exact Or.inl h
        · exact Or.inr (Or.inl h)
        · refine Or.inr (Or.inr (Or.inr ?_))
          obtain ⟨it, hit, rest⟩ := h.relined hq
          exact ⟨it, List.mem_append_left _ hit, rest⟩
        · refine Or.inr (Or.inr (Or.inr ?_))
          obtain ⟨x, hx, hpx⟩ := (hm p).1 hp
          obtain ⟨mx, _, hres, _⟩ := crossLink_post _ _ _ _ _ ok.cross
          refine ⟨{ x with line := x.line + mx }, List.mem_append_right _ ?_, p, hpx, h⟩
          rw [hres]
          exact List.mem_map.2 ⟨x, hx, rfl⟩
      · exact Or.inr (Or.inl h)
      · exact Or.inr (Or.inr (Or.inl h))

/-! ## C39: links to included files -/

theorem addFile_forced {W : World} {fuel : Nat} {path f : Str} {off : Int} {s s' : Stash} {res : List Item}
    (h : addFile W fuel path off (some f) s = (.ok res, s')) (hf : f ≠ [])
    (hs : alreadySeen s (abspath W.cwd path) = false) : abspath W.cwd path ∈ links s' f := by
  cases fuel with
  | zero => cases h
  | succ fuel =>
    rcases addFile_ok W h with ⟨h1, _, _⟩ | ⟨_, ⟨ok⟩⟩
    · rw [hs] at h1; cases h1
    · have h1 := enterMap_link ok.s1 (abspath W.cwd path) f hf
      have h2 := crossLink_rel (linksGrow_step W).refl (linksGrow_step W).trans (linksGrow_step W).reline
        (linksGrow_step W).link (abspath W.cwd path) ok.its { ok.s1 with map := enterMap ok.s1.map (abspath W.cwd path) (some f) }
      rw [ok.cross] at h2
      have h3 := addDistroMachine_keys W (abspath W.cwd path) ok.s3
      rw [ok.distro] at h3
      have h4 : abspath W.cwd path ∈ links ok.s3 f := h2.2 _ _ h1
      have h5 : links ok.s3 f = links (commitItems W res ok.s4) f := by
        unfold links commitItems
        simp only at h3 ⊢
        rw [h3]
      rw [h5, ← ok.final] at h4
      exact h4

/-- extensions of files that are parsed each time they are included -/
def rereadExts : List Str := [c!".inc", c!".bb", c!".conf"]

theorem not_alreadySeen {s : Stash} (hc : ClassesOnly s) {f : Str} (h : (splitext f).2 ∈ rereadExts) :
    alreadySeen s f = false := by
  have hb : f ∉ s.seenClasses := by
    intro hm
    rw [hc f hm] at h
    simp [rereadExts] at h
  unfold alreadySeen
  have : [c!".inc", c!".bb", c!".conf", c!".bbclass"].contains (splitext f).2 = true := by
    simp only [List.contains_iff_mem]
    simp only [rereadExts, List.mem_cons, List.not_mem_nil, or_false] at h ⊢
    rcases h with h | h | h <;> simp [h]
  rw [this]
  simp [hb]

/-- every included file is linked to the including one -/
def Linked (W : World) (s : Stash) : Prop :=
  ∀ it ∈ s.items, ∀ p ∈ it.payload.loaded, (splitext (abspath W.cwd p)).2 ∈ rereadExts → abspath W.cwd p ∈ links s it.origin

/-- the relation used for C39 -/
def KeepLinked (W : World) (s s' : Stash) : Prop :=
  LinksGrow s s' ∧ (ClassesOnly s → ClassesOnly s') ∧ (ClassesOnly s → Linked W s → Linked W s')

theorem keepLinked_mono {W : World} {s s' : Stash} (h1 : LinksGrow s s') (h2 : ClassesOnly s → ClassesOnly s')
    (h3 : ∀ y ∈ s'.items, ∃ x ∈ s.items, y.payload = x.payload ∧ y.origin = x.origin) : KeepLinked W s s' := by
  refine ⟨h1, h2, fun _ hl it hit p hp he => ?_⟩
  obtain ⟨x, hx, h4, h5⟩ := h3 it hit
  rw [h4] at hp
  rw [h5]
  exact h1.2 _ _ (hl x hx p hp he)

theorem keepLinked_refl {W : World} (s : Stash) : KeepLinked W s s :=
  keepLinked_mono ((linksGrow_step W).refl s) (fun h => h) (fun y hy => ⟨y, hy, rfl, rfl⟩)

theorem keepLinked_trans {W : World} (a b c : Stash) (h1 : KeepLinked W a b) (h2 : KeepLinked W b c) : KeepLinked W a c :=
  ⟨(linksGrow_step W).trans _ _ _ h1.1 h2.1, fun h => h2.2.1 (h1.2.1 h), fun h hl => h2.2.2 (h1.2.1 h) (h1.2.2 h hl)⟩

theorem abspath_ne_nil (W : World) (p : Str) : abspath W.cwd p ≠ [] := by
  intro h
  have := isAbs_abspath W p
  rw [h] at this
  cases this

theorem addFile_keepLinked (W : World) (fuel : Nat) (path : Str) (off : Int) (forced : Option Str) :
    M.Rel (KeepLinked W) (addFile W fuel path off forced) := by
  induction fuel generalizing path off forced with
  | zero => exact M.Rel.raise keepLinked_refl _
  | succ fuel ih =>
    intro s
    by_cases hs : alreadySeen s (abspath W.cwd path) = true
    · rw [addFile_seen off forced hs]; exact keepLinked_refl s
    · have hs : alreadySeen s (abspath W.cwd path) = false := by simpa using hs
      have hg := linksGrow_step W
      have hc := classesOnly_step W
      have huid : ∀ s : Stash, KeepLinked W s { s with nextUid := s.nextUid + 1 } :=
        fun s => keepLinked_mono (hg.uid s) (fun h => h) (fun y hy => ⟨y, hy, rfl, rfl⟩)
      have hlink : ∀ (s : Stash) k x, KeepLinked W s { s with map := mapAppend s.map k x } :=
        fun s k x => keepLinked_mono (hg.link s k x) (fun h => h) (fun y hy => ⟨y, hy, rfl, rfl⟩)
      have hrel : ∀ (s : Stash) l, Relined s.items l → KeepLinked W s { s with items := l } :=
        fun s l hl => keepLinked_mono (hg.reline s l hl) (fun h => h) (fun y hy => by
          obtain ⟨x, hx, he⟩ := hl.mem_right hy
          exact ⟨x, hx, by rw [he], by rw [he]⟩)
      have hcross := crossLink_rel keepLinked_refl keepLinked_trans hrel hlink (abspath W.cwd path)
      have hdistro := addDistroMachine_rel (R := KeepLinked W) keepLinked_refl keepLinked_trans
          (fun s db => keepLinked_mono (hg.consts s db) (fun h => h) (fun y hy => ⟨y, hy, rfl, rfl⟩)) W (abspath W.cwd path)
      have henter : ∀ s : Stash, KeepLinked W s { s with map := enterMap s.map (abspath W.cwd path) forced } :=
        enterMap_rel keepLinked_refl keepLinked_trans hlink
          (fun s k hk => keepLinked_mono (hg.enter s k hk) (fun h => h) (fun y hy => ⟨y, hy, rfl, rfl⟩)) _ _
      have hstep := addFile_step (W := W) keepLinked_trans off forced hs
        (fun o ns neg => getItems_rel keepLinked_refl keepLinked_trans huid W _ (fun p o f => ih p o f) o ns neg)
        henter hcross hdistro
      have hmark : KeepLinked W s (markSeen s (abspath W.cwd path)) :=
        keepLinked_mono (hg.mark s _) (hc.mark s _) (fun y hy => ⟨y, hy, rfl, rfl⟩)
      rcases hstep with ⟨e, s', he, hR⟩ | ⟨res, s4, he, hR⟩
      · rw [he]; exact keepLinked_trans _ _ _ hmark hR
      · rcases addFile_ok W he with ⟨h1, _, _⟩ | ⟨_, ⟨ok⟩⟩
        · rw [hs] at h1; cases h1
        · have h4 := keepLinked_trans _ _ _ hmark hR
          rw [he]
          refine ⟨hg.trans _ _ _ h4.1 (hg.commit _ _), fun h => h4.2.1 h, fun hcl hl => ?_⟩
          intro it hit p hp hext
          rcases List.mem_append.1 hit with hit | hit
          · exact h4.2.2 hcl hl it hit p hp hext
          · rw [addFile_origin he it hit]
            obtain ⟨mx, _, hres, _⟩ := crossLink_post _ _ _ _ _ ok.cross
            rw [hres] at hit
            obtain ⟨x, hx, rfl⟩ := List.mem_map.1 hit
            obtain ⟨ps, hps, hm⟩ := itemsLoop_loads W _ _ _ _ _ _ _ _ _ ok.loop
            obtain ⟨a, o, tmp, b, h5, h6, h7⟩ := hps.mem keepLinked_refl keepLinked_trans huid
              (fun p o f s tmp s' hh => by have := ih p o f s; rw [hh] at this; exact this) ((hm p).2 ⟨x, hx, hp⟩)
            have hca : ClassesOnly a := h5.2.1 (hmark.2.1 hcl)
            have h8 := addFile_forced h6 (abspath_ne_nil W path) (not_alreadySeen hca hext)
            have h9 := (henter ok.s1).1.2 _ _ (h7.1.2 _ _ h8)
            have h10 := hcross ok.its { ok.s1 with map := enterMap ok.s1.map (abspath W.cwd path) forced }
            rw [ok.cross] at h10
            have h11 := hdistro ok.s3
            rw [ok.distro] at h11
            have h12 := h11.1.2 _ _ (h10.1.2 _ _ h9)
            have h13 : links (commitItems W res s4) (abspath W.cwd path) = links ok.s4 (abspath W.cwd path) :=
              (congrArg (fun s => links s (abspath W.cwd path)) ok.final :
                links (commitItems W res s4) (abspath W.cwd path) = links (commitItems W res ok.s4) (abspath W.cwd path))
            rw [h13]; exact h12

end Oelint

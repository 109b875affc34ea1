import Verif.Lemmas.Finalize
/-! Linking of `.bbappend` files (C41, C42). -/
set_option linter.unusedSectionVars false
set_option linter.unusedSimpArgs false
namespace Oelint
variable [Uni]
open Spec

/-- the `.bbappend` is linked to the file when the file is there first -/
def FwdMatch (app x : Str) : Prop := matchDyn (appendPattern app) (basename x) = .ok true
/-- the `.bbappend` is linked to the file when the `.bbappend` is there first -/
def BwdMatch (app x : Str) : Prop := matchDyn (appendPattern' app) (replaceAll c!".bb" [] (basename x)) = .ok true

theorem maxLine_ge (l : List Item) : ∀ j ∈ l, j.line ≤ maxLine l := by
  intro j hj
  unfold maxLine
  cases hl : l.map (·.line) with
  | nil => rw [List.map_eq_nil_iff] at hl; subst hl; cases hj
  | cons x xs =>
    have : j.line ∈ l.map (·.line) := List.mem_map.2 ⟨j, hj, rfl⟩
    rw [hl] at this
    rcases List.mem_cons.1 this with h | h
    · simp only; rw [h]; exact foldl_max_ge x xs
    · exact foldl_max_mem_le x xs _ h

structure LinkedAppend (file : Str) (l : List Str) (mx : Int) (s : Stash) (r : Int) (s' : Stash) : Prop where
  items : s'.items = s.items
  keys : ∀ k, k ∈ keys s → k ∈ keys s'
  ge : mx ≤ r
  max : ∀ x ∈ l, FwdMatch file x → ∀ j ∈ s.items, j.origin = x → j.line ≤ r
  links : ∀ j v, v ∈ links s' j ↔ v ∈ links s j ∨ v = file ∧ j ∈ l ∧ FwdMatch file j

theorem linkAppend_ok (file : Str) (l : List Str) (mx : Int) (s s' : Stash) (r : Int)
    (h : linkAppend file l mx s = (.ok r, s')) : LinkedAppend file l mx s r s' := by
  induction l generalizing mx s with
  | nil =>
    cases h
    exact ⟨rfl, fun _ h => h, Int.le_refl _, by simp, by simp⟩
  | cons x xs ih =>
    rw [linkAppend_cons] at h
    split at h
    · cases h
    · rename_i hm
      have hn : ¬ FwdMatch file x := fun hh => by unfold FwdMatch at hh; rw [hm] at hh; cases hh
      obtain ⟨h1, h2, h3, h4, h5⟩ := ih _ _ h
      refine ⟨h1, h2, h3, fun y hy hf => ?_, fun j v => ?_⟩
      · rcases List.mem_cons.1 hy with rfl | hy
        · exact absurd hf hn
        · exact h4 y hy hf
      · rw [h5]
        apply or_congr_right
        constructor
        · rintro ⟨rfl, h6, h7⟩; exact ⟨rfl, by simp [h6], h7⟩
        · rintro ⟨rfl, h6, h7⟩
          refine ⟨rfl, (List.mem_cons.1 h6).resolve_left ?_, h7⟩
          rintro rfl; exact hn h7
    · rename_i hm
      obtain ⟨h1, h2, h3, h4, h5⟩ := ih _ _ h
      refine ⟨h1, fun k hk => h2 k (mapAppend_keys.2 (Or.inr hk)), ?_, fun y hy hf j hj ho => ?_, fun j v => ?_⟩
      · exact Int.le_trans (Int.le_max_left _ _) h3
      · rcases List.mem_cons.1 hy with rfl | hy
        · refine Int.le_trans (Int.le_trans (maxLine_ge _ j ?_) (Int.le_max_right _ _)) h3
          rw [List.mem_filter]
          exact ⟨hj, by simp [ho]⟩
        · exact h4 y hy hf j hj ho
      · rw [h5, links_mapAppend]
        have hm' : FwdMatch file x := hm
        by_cases hjx : j = x
        · subst hjx
          rw [if_pos rfl, List.mem_append, List.mem_singleton, or_assoc]
          apply or_congr_right
          constructor
          · rintro (rfl | ⟨rfl, h6, h7⟩)
            · exact ⟨rfl, by simp, hm'⟩
            · exact ⟨rfl, by simp, h7⟩
          · rintro ⟨rfl, _, _⟩; exact Or.inl rfl
        · rw [if_neg hjx]
          apply or_congr_right
          constructor
          · rintro ⟨rfl, h6, h7⟩; exact ⟨rfl, by simp [h6], h7⟩
          · rintro ⟨rfl, h6, h7⟩
            exact ⟨rfl, (List.mem_cons.1 h6).resolve_left hjx, h7⟩

/-- the items after linking them to a recipe -/
def Moved (file : Str) (mx : Int) (a b : Item) : Prop :=
  (c!".bbappend" <:+ a.origin ∧ BwdMatch a.origin file → b = { a with line := max a.line (a.inFileLine + mx) }) ∧
  (¬ (c!".bbappend" <:+ a.origin ∧ BwdMatch a.origin file) → b = a)

structure LinkedRecipe (file : Str) (mx : Int) (done l : List Item) (s s' : Stash) : Prop where
  items : ∃ l', s'.items = done ++ l' ∧ List.Forall₂ (Moved file mx) l l'
  links : ∀ j v, v ∈ links s' j ↔ v ∈ links s j ∨ j = file ∧ ∃ a ∈ l, a.origin = v ∧ c!".bbappend" <:+ v ∧ BwdMatch v file

theorem linkRecipe_ok (file : Str) (mx : Int) (done l : List Item) (s s' : Stash)
    (h : linkRecipe file (replaceAll c!".bb" [] (basename file)) mx done l s = (.ok (), s')) :
    LinkedRecipe file mx done l s s' := by
  have hend : ∀ p : Str, endsWith c!".bbappend" p = true ↔ c!".bbappend" <:+ p := fun p => by
    unfold endsWith; exact List.isSuffixOf_iff_suffix
  induction l generalizing done s with
  | nil =>
    rw [linkRecipe_nil] at h
    cases h
    exact ⟨⟨[], by simp, .nil⟩, fun j v => by simp; rfl⟩
  | cons item rest ih =>
    rw [linkRecipe_cons] at h
    have skip : ¬ (c!".bbappend" <:+ item.origin ∧ BwdMatch item.origin file) →
        linkRecipe file (replaceAll c!".bb" [] (basename file)) mx (done ++ [item]) rest s = (.ok (), s') →
        LinkedRecipe file mx done (item :: rest) s s' := by
      intro hn h
      obtain ⟨⟨l', h1, h2⟩, h3⟩ := ih _ _ h
      refine ⟨⟨item :: l', by rw [h1]; simp, .cons ⟨fun hh => absurd hh hn, fun _ => rfl⟩ h2⟩, fun j v => ?_⟩
      rw [h3]
      apply or_congr_right
      constructor
      · rintro ⟨rfl, a, ha, h4⟩; exact ⟨rfl, a, by simp [ha], h4⟩
      · rintro ⟨rfl, a, ha, h4, h5⟩
        refine ⟨rfl, a, (List.mem_cons.1 ha).resolve_left ?_, h4, h5⟩
        rintro rfl
        exact hn (h4 ▸ h5)
    split at h
    · rename_i he
      refine skip (fun hh => ?_) h
      rw [Bool.not_eq_true'] at he
      rw [(hend _).2 hh.1] at he
      cases he
    · rename_i he
      have he : c!".bbappend" <:+ item.origin := (hend _).1 (by simpa using he)
      split at h
      · cases h
      · rename_i hm
        refine skip (fun hh => ?_) h
        have := hh.2
        unfold BwdMatch at this
        rw [hm] at this; cases this
      · rename_i hm
        have hm' : BwdMatch item.origin file := hm
        obtain ⟨⟨l', h1, h2⟩, h3⟩ := ih _ _ h
        refine ⟨⟨{ item with line := max item.line (item.inFileLine + mx) } :: l', by rw [h1]; simp,
          .cons ⟨fun _ => rfl, fun hh => absurd ⟨he, hm'⟩ hh⟩ h2⟩, fun j v => ?_⟩
        rw [h3, links_mapAppend]
        by_cases hj : j = file
        · subst hj
          rw [if_pos rfl, List.mem_append, List.mem_singleton, or_assoc]
          apply or_congr_right
          constructor
          · rintro (rfl | ⟨_, a, ha, h4⟩)
            · exact ⟨rfl, item, by simp, rfl, he, hm'⟩
            · exact ⟨rfl, a, by simp [ha], h4⟩
          · rintro ⟨_, a, ha, h4, h5⟩
            rcases List.mem_cons.1 ha with rfl | ha
            · exact Or.inl h4.symm
            · exact Or.inr ⟨rfl, a, ha, h4, h5⟩
        · rw [if_neg hj]
          apply or_congr_right
          constructor
          · rintro ⟨h, _⟩; exact absurd h hj
          · rintro ⟨h, _⟩; exact absurd h hj


/-! ## every link has a reason -/

/-- the names of the `.bbappend` and the file match in one of the two ways -/
def Matched (v k : Str) : Prop := c!".bbappend" <:+ v ∧ (FwdMatch v k ∨ c!".bb" <:+ k ∧ BwdMatch v k)

theorem endsWith_iff {e p : Str} : endsWith e p = true ↔ e <:+ p := by
  unfold endsWith; exact List.isSuffixOf_iff_suffix

/-- what `crossLink` does to the links -/
structure Crossed (file : Str) (s s' : Stash) : Prop where
  sound : ∀ k v, v ∈ links s' k → v ∈ links s k ∨ Matched v k
  append : c!".bbappend" <:+ file → ∀ x ∈ keys s, FwdMatch file x → file ∈ links s' x
  recipe : c!".bb" <:+ file → ∀ it ∈ s.items, c!".bbappend" <:+ it.origin → BwdMatch it.origin file →
    it.origin ∈ links s' file

theorem not_both_suffix {p : Str} (h1 : c!".bbappend" <:+ p) (h2 : c!".bb" <:+ p) : False := by
  obtain ⟨a, rfl⟩ := h1
  obtain ⟨b, hb⟩ := h2
  have := congrArg List.reverse hb
  simp at this

theorem crossLink_crossed {file : Str} {its res : List Item} {s s' : Stash}
    (h : crossLink file its s = (.ok res, s')) : Crossed file s s' := by
  unfold crossLink at h
  split at h
  · rename_i he
    have he := endsWith_iff.1 he
    obtain ⟨s0, s1, h0, h⟩ := M.bind_ok.1 h
    cases h0
    obtain ⟨mx, s2, h1, h⟩ := M.bind_ok.1 h
    cases h
    obtain ⟨_, _, _, _, h2⟩ := linkAppend_ok _ _ _ _ _ _ h1
    refine ⟨fun k v hv => ?_, fun _ x hx hm => (h2 x file).2 (Or.inr ⟨rfl, hx, hm⟩), fun hb => (not_both_suffix he hb).elim⟩
    rcases (h2 k v).1 hv with h3 | ⟨rfl, _, h3⟩
    · exact Or.inl h3
    · exact Or.inr ⟨he, Or.inl h3⟩
  · rename_i hna
    have hna : ¬ c!".bbappend" <:+ file := fun hh => hna (endsWith_iff.2 hh)
    split at h
    · rename_i he
      have he := endsWith_iff.1 he
      obtain ⟨s0, s1, h0, h⟩ := M.bind_ok.1 h
      cases h0
      obtain ⟨u, s2, h1, h⟩ := M.bind_ok.1 h
      cases h
      obtain ⟨_, h2⟩ := linkRecipe_ok _ _ _ _ _ _ h1
      refine ⟨fun k v hv => ?_, fun hh => absurd hh hna, fun _ it hit ho hm => (h2 _ _).2 (Or.inr ⟨rfl, it, hit, rfl, ho, hm⟩)⟩
      rcases (h2 k v).1 hv with h3 | ⟨rfl, _, _, _, h4, h5⟩
      · exact Or.inl h3
      · exact Or.inr ⟨h4, Or.inr ⟨he, h5⟩⟩
    · rename_i hnb
      cases h
      exact ⟨fun k v hv => Or.inl hv, fun hh => absurd hh hna, fun hh => absurd (endsWith_iff.2 hh) hnb⟩

theorem enterMap_links {s : Stash} {file : Str} {forced : Option Str} {k v : Str}
    (h : v ∈ links { s with map := enterMap s.map file forced } k) : v ∈ links s k ∨ forced = some k ∧ v = file := by
  have h1 : ∀ k v, v ∈ links { s with map := if dhas file s.map then s.map else dset file [] s.map } k → v ∈ links s k := by
    intro k v hv
    by_cases hd : dhas file s.map = true
    · rw [if_pos hd] at hv; exact hv
    · rw [if_neg hd, links_dset_nil _ _ _ (by simpa using hd)] at hv; exact hv
  unfold enterMap at h
  simp only at h
  split at h
  · rename_i f
    split at h
    · exact Or.inl (h1 k v h)
    · have h2 := links_mapAppend { s with map := if dhas file s.map then s.map else dset file [] s.map } f file k
      simp only at h2
      rw [h2] at h
      split at h
      · rename_i hk
        subst hk
        rcases List.mem_append.1 h with h | h
        · exact Or.inl (h1 _ _ h)
        · exact Or.inr ⟨rfl, by simpa using h⟩
      · exact Or.inl (h1 _ _ h)
  · exact Or.inl (h1 k v h)

/-- an item of the file has loaded the other file -/
def LoadsFile (W : World) (l : List Item) (k v : Str) : Prop :=
  ∃ it ∈ l, it.origin = k ∧ ∃ p ∈ it.payload.loaded, abspath W.cwd p = v

theorem LoadsFile.relined {W : World} {a b : List Item} (h : Relined a b) {k v : Str} (hk : LoadsFile W a k v) :
    LoadsFile W b k v := by
  obtain ⟨it, hit, ho, hp⟩ := hk
  obtain ⟨n, hn⟩ := h.mem hit
  exact ⟨_, hn, ho, hp⟩

theorem addFile_justified (W : World) (fuel : Nat) (path : Str) (off : Int) (forced : Option Str) (s s' : Stash)
    (res : List Item) (h : addFile W fuel path off forced s = (.ok res, s')) (k v : Str) (hv : v ∈ links s' k) :
    v ∈ links s k ∨ (forced = some k ∧ v = abspath W.cwd path) ∨ LoadsFile W s'.items k v ∨ Matched v k := by
  induction fuel generalizing path off forced s s' res with
  | zero => cases h
  | succ fuel ih =>
    rcases addFile_ok W h with ⟨_, rfl, rfl⟩ | ⟨hs, ⟨ok⟩⟩
    · exact Or.inl hv
    · obtain ⟨ps, hps, hm⟩ := itemsLoop_loads W _ _ _ _ _ _ _ _ _ ok.loop
      have key : ∀ {a ps b}, Loads (addFile W fuel) (abspath W.cwd path) a ps b → v ∈ links b k →
          v ∈ links a k ∨ (k = abspath W.cwd path ∧ ∃ p ∈ ps, abspath W.cwd p = v) ∨ LoadsFile W b.items k v ∨ Matched v k := by
        intro a ps b hl
        induction hl with
        | done => exact Or.inl
        | uid _ ih' => exact ih'
        | @load a p off tmp a1 ps b hadd hl' ih' =>
          intro hb
          have hh : Hashes W a1 b := hl'.rel (hashes_step W).refl (hashes_step W).trans (hashes_step W).uid
            (fun p o f s tmp s' hh => by
              have := addFile_rel (hashes_step W) fuel p o f s
              rw [hh] at this; exact this)
          rcases ih' hb with h1 | ⟨h1, q, hq, h2⟩ | h1 | h1
          · rcases ih _ _ _ _ _ _ hadd h1 with h2 | ⟨h2, h3⟩ | h2 | h2
            · exact Or.inl h2
            · exact Or.inr (Or.inl ⟨(Option.some.inj h2).symm, p, by simp, h3.symm⟩)
            · obtain ⟨added, _, hr⟩ := hh
              refine Or.inr (Or.inr (Or.inl (LoadsFile.relined hr ?_)))
              obtain ⟨it, hit, rest⟩ := h2
              exact ⟨it, List.mem_append_left _ hit, rest⟩
            · exact Or.inr (Or.inr (Or.inr h2))
          · exact Or.inr (Or.inl ⟨h1, q, by simp [hq], h2⟩)
          · exact Or.inr (Or.inr (Or.inl h1))
          · exact Or.inr (Or.inr (Or.inr h1))
      have hq : Relined ok.s1.items ok.s4.items := ok.quiet.items
      have hmap := addDistroMachine_keys W (abspath W.cwd path) ok.s3
      rw [ok.distro] at hmap
      have h3 : v ∈ links ok.s3 k := by
        rw [ok.final] at hv
        unfold links commitItems at hv
        simp only at hv hmap
        rw [hmap] at hv; exact hv
      have hfin : s'.items = ok.s4.items ++ res := (congrArg Stash.items ok.final).trans rfl
      rcases (crossLink_crossed ok.cross).sound k v h3 with h4 | h4
      · rcases enterMap_links h4 with h5 | h5
        · rcases key hps h5 with h6 | ⟨h6, p, hp, h7⟩ | h6 | h6
          · exact Or.inl h6
          · refine Or.inr (Or.inr (Or.inl ?_))
            obtain ⟨x, hx, hpx⟩ := (hm p).1 hp
            obtain ⟨mx, _, hres, _⟩ := crossLink_post _ _ _ _ _ ok.cross
            have hin : { x with line := x.line + mx } ∈ res := by rw [hres]; exact List.mem_map.2 ⟨x, hx, rfl⟩
            refine ⟨{ x with line := x.line + mx }, by rw [hfin]; exact List.mem_append_right _ hin, ?_, p, hpx, h7⟩
            rw [h6]; exact addFile_origin h _ hin
          · refine Or.inr (Or.inr (Or.inl ?_))
            obtain ⟨it, hit, rest⟩ := h6.relined hq
            exact ⟨it, by rw [hfin]; exact List.mem_append_left _ hit, rest⟩
          · exact Or.inr (Or.inr (Or.inr h6))
        · exact Or.inr (Or.inl h5)
      · exact Or.inr (Or.inr (Or.inr h4))

theorem added_justified {W : World} {s s' : Stash} {ps : List Str} (h : Added W s ps s') (hs : ∀ k, links s k = [])
    (k v : Str) (hv : v ∈ links s' k) : LoadsFile W s'.items k v ∨ Matched v k := by
  induction h with
  | nil => rw [hs k] at hv; cases hv
  | @snoc s1 s2 ps p depth res h hp ih =>
    rcases addFile_justified W _ _ _ _ _ _ _ hp k v hv with h1 | ⟨h1, _⟩ | h1
    · rcases ih h1 with h2 | h2
      · have hh := addFile_rel (hashes_step W) depth p 0 none s1
        rw [hp] at hh
        obtain ⟨added, _, hr⟩ := hh
        refine Or.inl (LoadsFile.relined hr ?_)
        obtain ⟨it, hit, rest⟩ := h2
        exact ⟨it, List.mem_append_left _ hit, rest⟩
      · exact Or.inr h2
    · cases h1
    · exact h1

/-! ## pairs of a `.bbappend` and a recipe -/

section relNN
variable {R : Stash → Stash → Prop} (hr : ∀ a, R a a) (ht : ∀ a b c, R a b → R b c → R a c)
variable (hf : ∀ s, R s { s with nextUid := s.nextUid + 1 })
variable (W : World) {add : AddFn} (file : Str) (hadd : ∀ p o f, 0 ≤ o → M.Rel R (add p o f))
include hr ht hf hadd

theorem inheritLoop_relNN (lineno : Int) (hl : 0 ≤ lineno) (inhname : Str) (locs l found : List Str) (off : Int) :
    M.Rel R (inheritLoop W add file lineno inhname locs l found off) := by
  induction l generalizing found off with
  | nil => exact M.Rel.pure hr _
  | cons inh rest ih =>
    unfold inheritLoop
    refine M.Rel.bind ht (M.Rel.lift hr _) fun path => ?_
    split
    · exact ih _ _
    · refine M.Rel.bind ht (M.Rel.ask hr _) fun ign => ?_
      split
      · exact ih _ _
      · exact M.Rel.bind ht (hadd _ _ _ hl) fun tmp => ih _ _

theorem handleKind_relNN (lineno : Int) (hl : 0 ≤ lineno) (p : Params) (k : Kind) (pat : Pattern) (m : Mt) :
    M.Rel R (handleKind W add file lineno p k pat m) := by
  have hsimple : ∀ pl : Payload, M.Rel R (do let uid ← freshUid; pure (some (mkItem uid p pl, (0 : Int)))) :=
    fun pl => M.Rel.bind ht (fun s => hf s) fun _ => M.Rel.pure hr _
  unfold handleKind
  cases k <;> simp only
  case inherit | inheritGlob =>
    refine M.Rel.bind ht (M.Rel.ask hr _) fun inhname => ?_
    refine M.Rel.bind ht (inheritLoop_relNN hr ht hf W file hadd _ hl _ _ _ _ _) fun r => ?_
    exact M.Rel.bind ht (fun s => hf s) fun _ => M.Rel.pure hr _
  case «include» =>
    refine M.Rel.bind ht (M.Rel.ask hr _) fun name => ?_
    refine M.Rel.bind ht (M.Rel.lift hr _) fun path => ?_
    split
    · exact hsimple _
    · refine M.Rel.bind ht (M.Rel.ask hr _) fun ign => ?_
      split
      · exact M.Rel.pure hr _
      · refine M.Rel.bind ht (hadd _ _ _ hl) fun tmp => ?_
        exact M.Rel.bind ht (fun s => hf s) fun _ => M.Rel.pure hr _
  case addtask =>
    split
    · exact M.Rel.pure hr _
    · exact M.Rel.bind ht (fun s => hf s) fun _ => M.Rel.pure hr _
  case func =>
    refine M.Rel.bind ht (M.Rel.ask hr _) fun _ => ?_
    exact M.Rel.bind ht (fun s => hf s) fun _ => M.Rel.pure hr _
  all_goals exact M.Rel.bind ht (fun s => hf s) fun _ => M.Rel.pure hr _

theorem classify_relNN (lineno : Int) (hl : 0 ≤ lineno) (p : Params) (cnt : Str) (l : List (Kind × Pattern)) :
    M.Rel R (classify W add file lineno p cnt l) := by
  induction l with
  | nil => exact M.Rel.bind ht (fun s => hf s) fun _ => M.Rel.pure hr _
  | cons kp rest ih =>
    obtain ⟨k, pat⟩ := kp
    unfold classify
    split
    · exact ih
    · refine M.Rel.bind ht (handleKind_relNN hr ht hf W file hadd _ hl _ _ _ _) fun r => ?_
      cases r with
      | some r => exact M.Rel.pure hr _
      | none => exact ih

theorem itemsLoop_relNN (lineOffset off : Int) (ns : Bool) (cs : List Chunk) (hc : ∀ c ∈ cs, 0 ≤ c.line) :
    M.Rel R (itemsLoop W add file lineOffset off ns cs) := by
  induction cs generalizing off ns with
  | nil => exact M.Rel.pure hr _
  | cons c cs ih =>
    unfold itemsLoop
    refine M.Rel.bind ht (classify_relNN hr ht hf W file hadd _ (hc c (by simp)) _ _ _) fun r => ?_
    exact M.Rel.bind ht (ih _ _ fun c hc' => hc c (by simp [hc'])) fun _ => M.Rel.pure hr _

theorem getItems_relNN (lineOffset : Int) (hl : 0 ≤ lineOffset) (ns neg : Bool) :
    M.Rel R (getItems W add file lineOffset ns neg) := by
  intro s
  unfold getItems
  simp only [M.bind_def, M.lift]
  cases hp : prepareLines W (if isAbs file then file else abspath W.cwd file) lineOffset neg with
  | error e => exact hr s
  | ok cs =>
    refine itemsLoop_relNN hr ht hf W _ hadd _ _ _ _ ?_ s
    intro c hc
    unfold prepareLines at hp
    split at hp
    · obtain ⟨gs, _, rfl⟩ := chunksOf_ok_iff.1 hp
      have := chunksFrom_line_pos 1 gs c hc
      simp at this; omega
    · cases hp; cases hc
    · cases hp
    · cases hp
end relNN

/-- only lines of `.bbappend` items change, and they grow -/
def RaisedItem (a b : Item) : Prop :=
  b = { a with line := b.line } ∧ a.line ≤ b.line ∧ (¬ c!".bbappend" <:+ a.origin → b.line = a.line)

/-- only lines of `.bbappend` items change, and they grow -/
def Raised (l l' : List Item) : Prop := List.Forall₂ RaisedItem l l'

theorem RaisedItem.refl (a : Item) : RaisedItem a a := ⟨rfl, Int.le_refl _, fun _ => rfl⟩

theorem Raised.refl (l : List Item) : Raised l l := by
  induction l with
  | nil => exact .nil
  | cons x xs ih => exact .cons (.refl x) ih

theorem Raised.trans {a b c : List Item} (h1 : Raised a b) (h2 : Raised b c) : Raised a c := by
  induction h1 generalizing c with
  | nil => cases h2; exact .nil
  | cons hx _ ih =>
    cases h2 with
    | cons hy h2 =>
      refine .cons ⟨?_, Int.le_trans hx.2.1 hy.2.1, fun hn => ?_⟩ (ih h2)
      · rw [hy.1, hx.1]
      · have h3 := hx.2.2 hn
        rw [← h3]
        apply hy.2.2
        rw [hx.1]; exact hn

theorem raised_append {a b c d : List Item} (h1 : Raised a b) (h2 : Raised c d) : Raised (a ++ c) (b ++ d) := by
  induction h1 with
  | nil => exact h2
  | cons hx _ ih => exact .cons hx ih

/-- links grow, items are raised -/
structure Lifted (s s' : Stash) : Prop where
  grow : LinksGrow s s'
  items : Raised s.items s'.items

theorem Lifted.refl (s : Stash) : Lifted s s := ⟨⟨fun _ h => h, fun _ _ h => h⟩, .refl _⟩
theorem Lifted.trans {a b c : Stash} (h1 : Lifted a b) (h2 : Lifted b c) : Lifted a c :=
  ⟨⟨fun k h => h2.grow.1 k (h1.grow.1 k h), fun k v h => h2.grow.2 k v (h1.grow.2 k v h)⟩, h1.items.trans h2.items⟩
theorem Lifted.link (W : World) (s : Stash) (k v : Str) : Lifted s { s with map := mapAppend s.map k v } :=
  ⟨(linksGrow_step W).link s k v, .refl _⟩

theorem linkRecipe_lifted (W : World) (file bn : Str) (mx : Int) (done l : List Item) (s : Stash) (h : Raised s.items (done ++ l)) :
    Lifted s (linkRecipe file bn mx done l s).2 := by
  induction l generalizing done s with
  | nil =>
    rw [linkRecipe_nil]
    exact ⟨⟨fun _ h => h, fun _ _ h => h⟩, by simpa using h⟩
  | cons item rest ih =>
    rw [linkRecipe_cons]
    have h' : Raised s.items ((done ++ [item]) ++ rest) := by simpa using h
    split
    · exact ih _ _ h'
    · rename_i he
      have he := endsWith_iff.1 (show endsWith c!".bbappend" item.origin = true by simpa using he)
      split
      · exact ⟨⟨fun _ h => h, fun _ _ h => h⟩, h⟩
      · exact ih _ _ h'
      · refine Lifted.trans (Lifted.link W s file item.origin) (ih _ _ ?_)
        refine Raised.trans h' ?_
        refine raised_append (raised_append (.refl _) (.cons ⟨rfl, Int.le_max_left _ _, fun hh => absurd he hh⟩ .nil)) (.refl _)

theorem crossLink_lifted (W : World) (file : Str) (its : List Item) (s : Stash) : Lifted s (crossLink file its s).2 := by
  unfold crossLink
  split
  · have h := linkAppend_rel (R := Lifted) Lifted.refl (fun _ _ _ => Lifted.trans) file
      (fun s x => Lifted.link W s x file) (s.map.map (·.1)) 0 s
    simp only [M.bind_def, M.get]
    split <;> rename_i heq <;> rw [heq] at h <;> exact h
  · split
    · have h := linkRecipe_lifted W file (replaceAll c!".bb" [] (basename file)) (maxLine its) [] s.items s (.refl _)
      simp only [M.bind_def, M.get]
      split <;> rename_i heq <;> rw [heq] at h <;> exact h
    · exact Lifted.refl s

/-- a recipe and a `.bbappend` in the stash with matching names are linked and the items of the `.bbappend` come later -/
def Pairs (s : Stash) : Prop :=
  (∀ it ∈ s.items, 1 ≤ it.inFileLine) ∧
  ∀ i ∈ s.items, ∀ j ∈ s.items, c!".bbappend" <:+ i.origin → c!".bb" <:+ j.origin → FwdMatch i.origin j.origin →
    BwdMatch i.origin j.origin → i.origin ∈ links s j.origin ∧ j.line < i.line

theorem Raised.mem_right {a b : List Item} (h : Raised a b) {y : Item} (hy : y ∈ b) : ∃ x ∈ a, RaisedItem x y :=
  forall₂_mem_right h hy

theorem Pairs.lifted {s s' : Stash} (h : Pairs s) (hl : Lifted s s') : Pairs s' := by
  refine ⟨fun it hit => ?_, fun i hi j hj h1 h2 h3 h4 => ?_⟩
  · obtain ⟨x, hx, he, _⟩ := hl.items.mem_right hit
    rw [he]; exact h.1 x hx
  · obtain ⟨x, hx, hxe, hxl, _⟩ := hl.items.mem_right hi
    obtain ⟨y, hy, hye, _, hyl⟩ := hl.items.mem_right hj
    have hxo : i.origin = x.origin := by rw [hxe]
    have hyo : j.origin = y.origin := by rw [hye]
    rw [hxo] at h1 h3 h4 ⊢
    rw [hyo] at h2 h3 h4 ⊢
    obtain ⟨h5, h6⟩ := h.2 x hx y hy h1 h2 h3 h4
    refine ⟨hl.grow.2 _ _ h5, ?_⟩
    rw [hyl (fun hb => not_both_suffix hb h2)]
    omega

theorem addFile_lines {W : World} {fuel : Nat} {path : Str} {off : Int} {forced : Option Str} {s s' : Stash}
    {res : List Item} (h : addFile W fuel path off forced s = (.ok res, s')) :
    ∀ it ∈ res, 1 ≤ it.inFileLine := by
  rcases addFile_cases h with rfl | ⟨t, _, _, n, ⟨ok⟩⟩
  · simp
  · intro it hit
    obtain ⟨pre, post, he⟩ := List.append_of_mem hit
    rw [ok.inFileLine he]
    omega

/-- `crossLink` orders the new items and the old ones -/
theorem crossLink_order {file : Str} {its res : List Item} {s s' : Stash} (h : crossLink file its s = (.ok res, s'))
    (hpos : ∀ it ∈ its, 1 ≤ it.line) (hin : ∀ it ∈ s.items, 1 ≤ it.inFileLine) :
    (c!".bbappend" <:+ file → ∀ x ∈ keys s, FwdMatch file x → ∀ j ∈ s'.items, j.origin = x → ∀ r ∈ res, j.line < r.line) ∧
    (c!".bb" <:+ file → ∀ i ∈ s'.items, c!".bbappend" <:+ i.origin → BwdMatch i.origin file → ∀ r ∈ res, r.line < i.line) := by
  unfold crossLink at h
  split at h
  · rename_i he
    have he := endsWith_iff.1 he
    obtain ⟨s0, s1, h0, h⟩ := M.bind_ok.1 h
    cases h0
    obtain ⟨mx, s2, h1, h⟩ := M.bind_ok.1 h
    cases h
    obtain ⟨h2, _, _, h3, _⟩ := linkAppend_ok _ _ _ _ _ _ h1
    refine ⟨fun _ x hx hm j hj ho r hr => ?_, fun hb => (not_both_suffix he hb).elim⟩
    obtain ⟨r0, hr0, rfl⟩ := List.mem_map.1 hr
    rw [h2] at hj
    have h4 := h3 x hx hm j hj ho
    have h5 := hpos r0 hr0
    simp only; omega
  · rename_i hna
    have hna : ¬ c!".bbappend" <:+ file := fun hh => hna (endsWith_iff.2 hh)
    split at h
    · rename_i he
      have he := endsWith_iff.1 he
      obtain ⟨s0, s1, h0, h⟩ := M.bind_ok.1 h
      cases h0
      obtain ⟨u, s2, h1, h⟩ := M.bind_ok.1 h
      cases h
      obtain ⟨⟨l', h2, h3⟩, _⟩ := linkRecipe_ok _ _ _ _ _ _ h1
      refine ⟨fun hh => absurd hh hna, fun _ i hi ho hm r hr => ?_⟩
      rw [h2, List.nil_append] at hi
      obtain ⟨x, hx, h4, h5⟩ := forall₂_mem_right h3 hi
      have hxo : i.origin = x.origin := by
        by_cases hc : c!".bbappend" <:+ x.origin ∧ BwdMatch x.origin file
        · rw [h4 hc]
        · rw [h5 hc]
      rw [hxo] at ho hm
      rw [h4 ⟨ho, hm⟩]
      have h6 := hin x hx
      have h7 := maxLine_ge _ r hr
      simp only; omega
    · rename_i hnb
      exact ⟨fun hh => absurd hh hna, fun hh => absurd (endsWith_iff.2 hh) hnb⟩

theorem itemsLoop_pos {W : World} {fuel : Nat} {file : Str} {off : Int} {ns neg : Bool} {s s' : Stash} {its : List Item}
    {cs : List Chunk} (hoff : 0 ≤ off) (hp : prepareLines W file off neg = .ok cs)
    (h : itemsLoop W (addFile W fuel) file off 0 ns cs s = (.ok its, s')) : ∀ it ∈ its, 1 ≤ it.line := by
  have ht := traced_itemOf W _ (addPos_addFile W fuel) (Int.le_refl _) (itemsLoop_traced W _ _ _ _ _ _ _ _ _ h)
  intro it hit
  obtain ⟨c, hc, hi⟩ := forall₂_mem_right ht hit
  have h1 := hi.line_ge
  unfold prepareLines at hp
  split at hp
  · obtain ⟨gs, _, rfl⟩ := chunksOf_ok_iff.1 hp
    have := chunksFrom_line_pos 1 gs c hc
    simp at this; omega
  · cases hp; cases hc
  · cases hp
  · cases hp

theorem addFile_pairs (W : World) (fuel : Nat) (path : Str) (off : Int) (hoff : 0 ≤ off) (forced : Option Str) :
    M.Rel (fun s s' => Closed s ∧ Pairs s → Closed s' ∧ Pairs s') (addFile W fuel path off forced) := by
  induction fuel generalizing path off forced with
  | zero => exact fun s h => h
  | succ fuel ih =>
    intro s hc
    refine ⟨addFile_closed W _ path off forced s hc.1, ?_⟩
    by_cases hs : alreadySeen s (abspath W.cwd path) = true
    · rw [addFile_seen off forced hs]; exact hc.2
    · have hs : alreadySeen s (abspath W.cwd path) = false := by simpa using hs
      have hmark : Closed (markSeen s (abspath W.cwd path)) ∧ Pairs (markSeen s (abspath W.cwd path)) := hc
      have hget := getItems_relNN (R := fun s s' => Closed s ∧ Pairs s → Closed s' ∧ Pairs s') (fun _ h => h)
        (fun _ _ _ h1 h2 h => h2 (h1 h))
        (fun s h => h) W (abspath W.cwd path) (fun p o f ho => ih p o ho f) off hoff s.newStyle s.negative _ hmark
      rw [addFile_eq W fuel path off forced s hs]
      split
      · rename_i heq; rw [heq] at hget; exact hget.2
      · rename_i its s1 heq
        rw [heq] at hget
        have hent : Lifted s1 { s1 with map := enterMap s1.map (abspath W.cwd path) forced } :=
          ⟨enterMap_rel (linksGrow_step W).refl (linksGrow_step W).trans (linksGrow_step W).link (linksGrow_step W).enter _ _ _,
            .refl _⟩
        have hcl := closed_enterMap hget.1 (abspath W.cwd path) forced
        have hx := crossLink_lifted W (abspath W.cwd path) its { s1 with map := enterMap s1.map (abspath W.cwd path) forced }
        split
        · rename_i heq3; rw [heq3] at hx; exact (hget.2.lifted hent).lifted hx
        · rename_i res s3 heq3
          rw [heq3] at hx
          have h3 := (hget.2.lifted hent).lifted hx
          have hd := addDistroMachine_rel (R := Lifted) Lifted.refl (fun _ _ _ => Lifted.trans)
            (fun s db => ⟨⟨fun _ h => h, fun _ _ h => h⟩, .refl _⟩) W (abspath W.cwd path) s3
          have hdi := addDistroMachine_rel (R := fun s s' => s'.items = s.items) (fun _ => rfl) (fun _ _ _ h1 h2 => h2.trans h1)
            (fun _ _ => rfl) W (abspath W.cwd path) s3
          split
          · rename_i heq4; rw [heq4] at hd; exact h3.lifted hd
          · rename_i s4 heq4
            rw [heq4] at hd hdi
            simp only at hd hdi
            have h4 := h3.lifted hd
            have hall := addFile_eq W fuel path off forced s hs
            rw [heq] at hall
            simp only at hall
            rw [heq3] at hall
            simp only at hall
            rw [heq4] at hall
            have ho := addFile_origin hall
            have hl := addFile_lines hall
            have hits : ∀ it ∈ its, 1 ≤ it.line := by
              unfold getItems at heq
              obtain ⟨cs, s0, h0, h1⟩ := M.bind_ok.1 heq
              have hcs : prepareLines W (if isAbs (abspath W.cwd path) = true then abspath W.cwd path
                else abspath W.cwd (abspath W.cwd path)) off s.negative = .ok cs := by
                simp only [M.lift, Prod.mk.injEq] at h0; exact h0.1
              exact itemsLoop_pos hoff hcs h1
            obtain ⟨o1, o2⟩ := crossLink_order heq3 hits (hget.2.lifted hent).1
            have cr := crossLink_crossed heq3
            refine ⟨fun it hit => ?_, fun i hi j hj g1 g2 g3 g4 => ?_⟩
            · rcases List.mem_append.1 hit with hit | hit
              · exact h4.1 it hit
              · exact hl it hit
            · rcases List.mem_append.1 hi with hi | hi <;> rcases List.mem_append.1 hj with hj | hj
              · exact h4.2 i hi j hj g1 g2 g3 g4
              · -- new recipe
                rw [hdi] at hi
                have hjo := ho j hj
                rw [hjo] at g2 g3 g4 ⊢
                refine ⟨?_, o2 g2 i hi g1 g4 j hj⟩
                obtain ⟨x, hx', he⟩ := hx.items.mem_right hi
                have hxo : x.origin = i.origin := by rw [he.1]
                have := cr.recipe g2 x hx' (hxo ▸ g1) (hxo ▸ g4)
                rw [hxo] at this
                exact hd.grow.2 _ _ this
              · -- new `.bbappend`
                rw [hdi] at hj
                have hio := ho i hi
                rw [hio] at g1 g3 g4 ⊢
                obtain ⟨x, hx', he⟩ := hx.items.mem_right hj
                have hxo : x.origin = j.origin := by rw [he.1]
                have hk : j.origin ∈ keys { s1 with map := enterMap s1.map (abspath W.cwd path) forced } :=
                  hxo ▸ hcl.2 x hx'
                exact ⟨hd.grow.2 _ _ (cr.append g1 _ hk g3), o1 g1 _ hk g3 j hj rfl i hi⟩
              · exfalso
                rw [ho i hi] at g1
                rw [ho j hj] at g2
                exact not_both_suffix g1 g2

end Oelint

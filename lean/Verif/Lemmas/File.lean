import Verif.Lemmas.ParserErr
/-! What `AddFile` returns for one file. -/
set_option linter.unusedSectionVars false
set_option linter.unusedSimpArgs false
namespace Oelint
variable [Uni]
open Spec

theorem isLines_unique {text : Str} {ls : List Str} (h : IsLines text ls) : ls = readlines text := by
  obtain ⟨hf, hne, hnl, hend⟩ := h
  subst hf
  induction ls with
  | nil => rfl
  | cons l ls ih =>
    have key : ∀ (l r : Str), l ≠ [] → '\n' ∉ l.dropLast → (r = [] ∨ l.getLast? = some '\n') →
        readlines (l ++ r) = l :: readlines r := by
      intro l r h1 h2 h3
      induction l with
      | nil => exact absurd rfl h1
      | cons c t iht =>
        by_cases ht : t = []
        · subst ht
          by_cases hc : c = '\n'
          · subst hc; exact readlines_cons_nl _
          · rcases h3 with rfl | h3
            · rw [List.append_nil, readlines_cons_ne _ hc]; simp [readlines]
            · simp at h3; exact absurd h3 hc
        · obtain ⟨d, t', rfl⟩ := List.exists_cons_of_ne_nil ht
          rw [List.dropLast_cons_cons] at h2
          have hc : c ≠ '\n' := fun h => h2 (by simp [h])
          have := iht (by simp) (fun h => h2 (List.mem_cons_of_mem _ h)) (by simpa using h3)
          rw [List.cons_append, readlines_cons_ne _ hc, this]; rfl
    have hr : readlines (l ++ ls.flatten) = l :: readlines ls.flatten := by
      apply key _ _ (hne l (by simp)) (hnl l (by simp))
      cases ls with
      | nil => left; rfl
      | cons a b => right; exact hend l (by simp)
    rw [List.flatten_cons, hr, ← ih (fun x hx => hne x (by simp [hx])) (fun x hx => hnl x (by simp [hx]))]
    intro x hx
    apply hend x
    cases ls with
    | nil => simp at hx
    | cons a b => rw [List.dropLast_cons_cons]; exact List.mem_cons_of_mem _ hx

theorem isLines_iff {text : Str} {ls : List Str} : IsLines text ls ↔ ls = readlines text :=
  ⟨isLines_unique, fun h => h ▸ readlines_isLines text⟩

theorem univNewlines_id {t : Str} (h : '\r' ∉ t) : univNewlines t = t := by
  induction t with
  | nil => rfl
  | cons c t ih =>
    have hc : c ≠ '\r' := fun hh => h (by simp [hh])
    rw [univNewlines]
    · rw [ih (fun hh => h (by simp [hh]))]; simp [hc]
    · rintro _ hh _; exact hc hh

/-! ## the chunks of the groups -/

theorem chunksFrom_realraw (off : Int) (neg : Bool) (num : Nat) (gs : List (List Str)) :
    (chunksFrom off neg num gs).map (·.realraw) = gs.map List.flatten := by
  induction gs generalizing num with
  | nil => rfl
  | cons g gs ih => simp [chunksFrom, ih, mkChunk]

theorem chunksFrom_mem {off : Int} {neg : Bool} {num : Nat} {gs : List (List Str)} {c : Chunk}
    (h : c ∈ chunksFrom off neg num gs) : ∃ g ∈ gs, ∃ k, c = mkChunk off k neg g.flatten := by
  induction gs generalizing num with
  | nil => simp [chunksFrom] at h
  | cons g gs ih =>
    rcases List.mem_cons.1 h with rfl | h
    · exact ⟨g, by simp, _, rfl⟩
    · obtain ⟨g', hg, k, rfl⟩ := ih h
      exact ⟨g', by simp [hg], k, rfl⟩

/-- line numbers count the newlines before the chunk -/
theorem chunksFrom_line {off : Int} {neg : Bool} {num : Nat} {gs : List (List Str)} {pre post : List Chunk} {c : Chunk}
    (h : chunksFrom off neg num gs = pre ++ c :: post) :
    c.line = num + (((pre.map (·.realraw)).flatten.count '\n' : Nat) : Int) + off := by
  induction gs generalizing num pre with
  | nil => simp [chunksFrom] at h
  | cons g gs ih =>
    rw [chunksFrom] at h
    cases pre with
    | nil =>
      simp at h
      rw [← h.1]; simp [mkChunk]
    | cons x pre =>
      simp only [List.cons_append, List.cons.injEq] at h
      obtain ⟨rfl, h⟩ := h
      rw [ih h]
      simp only [List.map_cons, List.flatten_cons, List.count_append, mkChunk, countC]
      push_cast; omega

theorem groups_nonempty {ls : List Str} {gs : List (List Str)} (h : Groups ls gs) : ∀ g ∈ gs, g ≠ [] := by
  induction h with
  | nil => simp
  | cons hg _ ih =>
    intro g hgm
    rcases List.mem_cons.1 hgm with rfl | hgm
    · exact isGroup_ne_nil hg
    · exact ih g hgm

/-- all groups but the last contain a newline -/
theorem groups_newline {ls : List Str} {gs : List (List Str)} (h : Groups ls gs)
    (hl : ∀ l ∈ ls.dropLast, l.getLast? = some '\n') : ∀ g ∈ gs.dropLast, '\n' ∈ g.flatten := by
  induction h with
  | nil => simp
  | @cons g rest gs hg hgs ih =>
    intro x hx
    cases gs with
    | nil => simp at hx
    | cons g' gs' =>
      rw [List.dropLast_cons_cons] at hx
      have hrest : rest ≠ [] := by
        rintro rfl
        have := groups_flatten hgs
        have h2 := groups_nonempty hgs g' (by simp)
        simp at this
        exact h2 this.1
      rw [List.dropLast_append_of_ne_nil hrest] at hl
      rcases List.mem_cons.1 hx with rfl | hx
      · obtain ⟨l, t, rfl⟩ := List.exists_cons_of_ne_nil (isGroup_ne_nil hg)
        have := hl l (by simp)
        rw [List.flatten_cons]
        exact List.mem_append_left _ (List.mem_of_getLast? this)
      · exact ih (fun l hh => hl l (by simp [hh])) x hx

theorem chunksFrom_increasing {off : Int} {neg : Bool} {num : Nat} {gs : List (List Str)}
    (h : ∀ g ∈ gs.dropLast, '\n' ∈ g.flatten) :
    (chunksFrom off neg num gs).Pairwise (fun a b => a.line < b.line) := by
  induction gs generalizing num with
  | nil => simp [chunksFrom]
  | cons g gs ih =>
    rw [chunksFrom, List.pairwise_cons]
    constructor
    · intro c hc
      have h1 := chunksFrom_line_pos _ _ c hc
      cases gs with
      | nil => simp [chunksFrom] at hc
      | cons g' gs' =>
        have h2 : 0 < countC '\n' g.flatten := by
          unfold countC; rw [List.count_pos_iff]; exact h g (by simp)
        simp only [mkChunk]
        push_cast at h1
        omega
    · apply ih
      intro x hx
      apply h
      cases gs with
      | nil => simp at hx
      | cons a b => rw [List.dropLast_cons_cons]; exact List.mem_cons_of_mem _ hx

/-! ## a file that was read -/

/-- everything that is known about the items returned for a text file -/
structure FileOk (W : World) (fuel : Nat) (file t : Str) (off : Int) (ns neg : Bool) (res : List Item) where
  gs : List (List Str)
  its : List Item
  mx : Int
  groups : Groups (readlines (univNewlines t)) gs
  traced : Traced W (addFile W fuel) file off 0 ns (chunksFrom off neg 1 gs) its
  mx_nonneg : 0 ≤ mx
  res_eq : res = shiftLines mx its
  mx_zero : endsWith c!".bbappend" file = false → mx = 0

theorem addFile_file {W : World} {fuel : Nat} {path : Str} {off : Int} {forced : Option Str} {s s' : Stash}
    {res : List Item} {t : Str} (h : addFile W fuel path off forced s = (.ok res, s'))
    (hnew : alreadySeen s (abspath W.cwd path) = false) (hf : W.file (abspath W.cwd path) = .text t) :
    ∃ n, Nonempty (FileOk W n (abspath W.cwd path) t off s.newStyle s.negative res) := by
  cases fuel with
  | zero => cases h
  | succ n =>
    refine ⟨n, ?_⟩
    rcases addFile_ok W h with ⟨h1, _⟩ | ⟨_, ⟨ok⟩⟩
    · rw [hnew] at h1; cases h1
    · obtain ⟨mx, h1, h2, h3⟩ := crossLink_post _ _ _ _ _ ok.cross
      have ht := itemsLoop_traced W _ _ _ _ _ _ _ _ _ ok.loop
      have hp := ok.prep
      unfold prepareLines at hp
      rw [hf] at hp
      obtain ⟨gs, hgs, hc⟩ := chunksOf_ok_iff.1 hp
      rw [hc] at ht
      exact ⟨⟨gs, ok.its, mx, hgs, ht, h1, h2, h3⟩⟩

theorem addFile_notFound {W : World} {fuel : Nat} {path : Str} {off : Int} {forced : Option Str} {s s' : Stash}
    {res : List Item} (h : addFile W fuel path off forced s = (.ok res, s'))
    (hf : W.file (abspath W.cwd path) = .notFound) : res = [] := by
  cases fuel with
  | zero => cases h
  | succ n =>
    rcases addFile_ok W h with ⟨_, h, _⟩ | ⟨_, ⟨ok⟩⟩
    · exact h
    · obtain ⟨mx, _, h2, _⟩ := crossLink_post _ _ _ _ _ ok.cross
      have hp := ok.prep
      unfold prepareLines at hp
      rw [hf] at hp
      have hl := ok.loop
      simp only [Except.ok.injEq] at hp
      rw [← hp] at hl
      have : ok.its = [] := by
        rw [itemsLoop] at hl
        have := congrArg Prod.fst hl
        simp only [M.pure_def, Except.ok.injEq] at this
        exact this.symm
      rw [h2, this]; rfl

namespace FileOk
variable {W : World} {fuel : Nat} {file t : Str} {off : Int} {ns neg : Bool} {res : List Item}

theorem itemOf (h : FileOk W fuel file t off ns neg res) :
    List.Forall₂ (ItemOf file off) (chunksFrom off neg 1 h.gs) h.its :=
  traced_itemOf W _ (addPos_addFile W fuel) (Int.le_refl _) h.traced

theorem forall₂_map_eq {α β γ : Type} {R : α → β → Prop} {l : List α} {l' : List β} {f : α → γ} {g : β → γ}
    (h : List.Forall₂ R l l') (hfg : ∀ a ∈ l, ∀ b, R a b → f a = g b) : l.map f = l'.map g := by
  induction h with
  | nil => rfl
  | @cons a b l l' hr _ ih =>
    simp only [List.map_cons]
    rw [hfg a (by simp) b hr, ih (fun x hx => hfg x (by simp [hx]))]

theorem realraw_ne (h : FileOk W fuel file t off ns neg res) : ∀ c ∈ chunksFrom off neg 1 h.gs, c.realraw ≠ [] := by
  intro c hc
  obtain ⟨g, hg, k, rfl⟩ := chunksFrom_mem hc
  simp only [mkChunk]
  obtain ⟨l, t', rfl⟩ := List.exists_cons_of_ne_nil (groups_nonempty h.groups g hg)
  have hm : l ∈ h.gs.flatten := List.mem_flatten.2 ⟨_, hg, by simp⟩
  rw [groups_flatten h.groups] at hm
  have := (readlines_isLine hm).1
  simp [this]

theorem realRaw (h : FileOk W fuel file t off ns neg res) : res.map (·.realRaw) = h.gs.map List.flatten := by
  refine (congrArg (List.map (·.realRaw)) h.res_eq).trans ?_
  rw [← chunksFrom_realraw off neg 1 h.gs]
  unfold shiftLines
  rw [List.map_map]
  symm
  refine forall₂_map_eq h.itemOf ?_
  intro c hc it hit
  have := h.realraw_ne c hc
  simp [hit.realRaw, this]

theorem text (h : FileOk W fuel file t off ns neg res) : (res.map (·.realRaw)).flatten = univNewlines t := by
  rw [h.realRaw, ← List.flatten_flatten, groups_flatten h.groups]
  exact (readlines_isLines _).1

/-- the chunk of an item -/
theorem mem (h : FileOk W fuel file t off ns neg res) {it : Item} (hi : it ∈ res) :
    ∃ it0 ∈ h.its, it = { it0 with line := it0.line + h.mx } ∧
      ∃ c ∈ chunksFrom off neg 1 h.gs, ItemOf file off c it0 := by
  have hi' := hi
  rw [h.res_eq] at hi'
  simp only [shiftLines, List.mem_map] at hi'
  obtain ⟨x, hx, rfl⟩ := hi'
  exact ⟨x, hx, rfl, forall₂_mem_right h.itemOf hx⟩

theorem split (h : FileOk W fuel file t off ns neg res) {pre post : List Item} {it : Item} (hi : res = pre ++ it :: post) :
    ∃ pre0 post0 it0, h.its = pre0 ++ it0 :: post0 ∧ it = { it0 with line := it0.line + h.mx } ∧
      pre = shiftLines h.mx pre0 := by
  have hi' := hi
  rw [h.res_eq] at hi'
  unfold shiftLines at hi'
  obtain ⟨p, q, h1, h2, h3⟩ := List.map_eq_append_iff.1 hi'
  obtain ⟨x, q', h4, h5, h6⟩ := List.map_eq_cons_iff.1 h3
  exact ⟨p, q', x, by rw [h1, h4], h5.symm, h2.symm⟩

theorem forall₂_split {α β : Type} {R : α → β → Prop} {l : List α} {p : List β} {b : β} {q : List β}
    (h : List.Forall₂ R l (p ++ b :: q)) : ∃ p' a q', l = p' ++ a :: q' ∧ List.Forall₂ R p' p ∧ R a b := by
  induction p generalizing l with
  | nil => cases h with | @cons a _ l' _ hr _ => exact ⟨[], a, l', rfl, .nil, hr⟩
  | cons x p ih =>
    cases h with
    | @cons a _ l' _ hr h =>
      obtain ⟨p', a', q', rfl, h1, h2⟩ := ih h
      exact ⟨a :: p', a', q', rfl, .cons hr h1, h2⟩

theorem inFileLine (h : FileOk W fuel file t off ns neg res) {pre post : List Item} {it : Item}
    (hi : res = pre ++ it :: post) :
    it.inFileLine = 1 + ((pre.map (·.realRaw)).flatten.count '\n' : Nat) := by
  obtain ⟨pre0, post0, it0, h1, rfl, rfl⟩ := h.split hi
  have h2 := h.itemOf
  rw [h1] at h2
  obtain ⟨p', c, q', h3, h4, h5⟩ := forall₂_split h2
  have h6 := chunksFrom_line h3
  have h7 : p'.map (·.realraw) = (shiftLines h.mx pre0).map (·.realRaw) := by
    unfold shiftLines; rw [List.map_map]
    refine forall₂_map_eq h4 ?_
    intro c hc it hit
    have := h.realraw_ne c (by rw [h3]; simp [hc])
    simp [hit.realRaw, this]
  rw [h7] at h6
  simp only [h5.inFileLine, h6]
  push_cast; omega

theorem increasing (h : FileOk W fuel file t off ns neg res) : res.Pairwise (fun a b => a.line < b.line) := by
  rw [h.res_eq]
  unfold shiftLines
  rw [List.pairwise_map]
  have hnl := groups_newline h.groups (fun l hl => (readlines_isLines (univNewlines t)).2.2.2 l hl)
  refine (traced_lines W _ (addPos_addFile W fuel) (chunksFrom_increasing hnl) h.traced).1.imp ?_
  intro a b hab; simp only; omega

theorem forall₂_pairwise {α β : Type} {R : α → β → Prop} {P : α → α → Prop} {Q : β → β → Prop} {l : List α} {l' : List β}
    (h : List.Forall₂ R l l') (hp : l.Pairwise P) (hpq : ∀ a a' b b', R a b → R a' b' → P a a' → Q b b') :
    l'.Pairwise Q := by
  induction h with
  | nil => exact .nil
  | @cons a b l l' hr h ih =>
    rw [List.pairwise_cons] at hp ⊢
    refine ⟨?_, ih hp.2⟩
    intro y hy
    obtain ⟨x, hx, hxy⟩ := forall₂_mem_right h hy
    exact hpq a x b y hr hxy (hp.1 x hx)

theorem increasing_inFile (h : FileOk W fuel file t off ns neg res) :
    res.Pairwise (fun a b => a.inFileLine < b.inFileLine) := by
  rw [h.res_eq]
  unfold shiftLines
  rw [List.pairwise_map]
  have hnl := groups_newline h.groups (fun l hl => (readlines_isLines (univNewlines t)).2.2.2 l hl)
  refine forall₂_pairwise h.itemOf (chunksFrom_increasing hnl) ?_
  intro a a' b b' h1 h2 h3
  simp only [h1.inFileLine, h2.inFileLine]; omega

theorem line_eq (h : FileOk W fuel file t off ns neg res) {pre post : List Item} {it : Item}
    (hi : res = pre ++ it :: post) (hpre : ∀ x ∈ pre, x.payload.loads = false) :
    it.line = it.inFileLine + off + h.mx := by
  obtain ⟨pre0, post0, it0, h1, rfl, rfl⟩ := h.split hi
  have := traced_line_eq W _ (addPos_addFile W fuel) h.traced pre0 post0 it0 h1 (by
    intro x hx
    have := hpre { x with line := x.line + h.mx } (by
      unfold shiftLines; exact List.mem_map.2 ⟨x, hx, rfl⟩)
    exact this)
  simp only; omega

end FileOk

/-! ## C09 -/

theorem traced_delim {W : World} {add : AddFn} (hadd : AddPos add) {file : Str} {lineOffset off : Int} {ns : Bool}
    {cs : List Chunk} {its : List Item} (h : Traced W add file lineOffset off ns cs its) :
    (ns = true → ∀ it ∈ its, it.delim = ':') ∧
    (∀ pre it post, its = pre ++ it :: post → it.delim = ':' → ∀ x ∈ post, x.delim = ':') := by
  induction h with
  | nil => exact ⟨fun _ => by simp, fun pre it post he => by simp at he⟩
  | @cons off d ns c cs it its s s' hc _ ih =>
    have hp := (classify_post W _ _ hadd _ _ _ _ _ _ _ hc).1
    refine ⟨fun hns x hx => ?_, fun pre y post he hy => ?_⟩
    · rcases List.mem_cons.1 hx with rfl | hx
      · exact hp.delim hns
      · exact ih.1 (by simp [hns]) x hx
    · cases pre with
      | nil =>
        simp only [List.nil_append, List.cons.injEq] at he
        obtain ⟨rfl, rfl⟩ := he
        exact ih.1 (by simp [Item.isNewStyle, hy])
      | cons z pre =>
        simp only [List.cons_append, List.cons.injEq] at he
        exact ih.2 pre y post he.2 hy

theorem FileOk.delim {W : World} {fuel : Nat} {file t : Str} {off : Int} {ns neg : Bool} {res : List Item}
    (h : FileOk W fuel file t off ns neg res) :
    (ns = true → ∀ it ∈ res, it.delim = ':') ∧
    (∀ pre it post, res = pre ++ it :: post → it.delim = ':' → ∀ x ∈ post, x.delim = ':') := by
  have hd := traced_delim (addPos_addFile W fuel) h.traced
  refine ⟨fun hns it hi => ?_, fun pre it post he hi x hx => ?_⟩
  · obtain ⟨it0, h0, rfl, _⟩ := h.mem hi
    exact hd.1 hns it0 h0
  · have he := h.res_eq.symm.trans he
    unfold shiftLines at he
    obtain ⟨p, q, h1, rfl, h2⟩ := List.map_eq_append_iff.1 he
    obtain ⟨y, r, rfl, rfl, rfl⟩ := List.map_eq_cons_iff.1 h2
    obtain ⟨z, hz, rfl⟩ := List.mem_map.1 hx
    exact hd.2 p y r h1 hi z hz

/-- a successful `AddFile` returns nothing or has parsed the text of the file -/
theorem addFile_cases {W : World} {fuel : Nat} {path : Str} {off : Int} {forced : Option Str} {s s' : Stash}
    {res : List Item} (h : addFile W fuel path off forced s = (.ok res, s')) :
    res = [] ∨ ∃ t, alreadySeen s (abspath W.cwd path) = false ∧ W.file (abspath W.cwd path) = .text t ∧
      ∃ n, Nonempty (FileOk W n (abspath W.cwd path) t off s.newStyle s.negative res) := by
  cases fuel with
  | zero => cases h
  | succ n =>
    rcases addFile_ok W h with ⟨_, rfl, _⟩ | ⟨hnew, ⟨ok⟩⟩
    · exact Or.inl rfl
    · have hp := ok.prep
      unfold prepareLines at hp
      split at hp
      · rename_i t ht
        exact Or.inr ⟨t, hnew, ht, addFile_file h hnew ht⟩
      · rename_i ht
        exact Or.inl (addFile_notFound h ht)
      · cases hp
      · cases hp

end Oelint

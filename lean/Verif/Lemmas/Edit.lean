import Verif.Lemmas.Context
/-! Editing a file (C102). -/
set_option linter.unusedSectionVars false
set_option linter.unusedSimpArgs false
namespace Oelint
variable [Uni]
open Spec

section
variable {W : World} {g : Str → FileRes} {db : J} {V : Str → Prop}

theorem itemsLoop_append {add : AddFn} {file : Str} {off i : Int} {ns : Bool} {c1 c2 : List Chunk} {s t : Stash} {r : List Item}
    (h : itemsLoop W add file off i ns (c1 ++ c2) s = (.ok r, t)) :
    ∃ r1 r2 i1 s1, r = r1 ++ r2 ∧ r1.length = c1.length ∧ itemsLoop W add file off i ns c1 s = (.ok r1, s1) ∧
      itemsLoop W add file off i1 (ns || r1.any Item.isNewStyle) c2 s1 = (.ok r2, t) := by
  induction c1 generalizing i ns s r with
  | nil => exact ⟨[], r, i, s, rfl, rfl, rfl, by simpa using h⟩
  | cons c c1 ih =>
    rw [List.cons_append, itemsLoop, M.bind_def] at h
    rw [itemsLoop, M.bind_def]
    rcases hc : classify W add file c.line (chunkParams file off i ns c) c.cnt parseOrder s with ⟨x, s1⟩
    rw [hc] at h
    cases x with
    | error e => cases h
    | ok x =>
      obtain ⟨it, o⟩ := x
      simp only at h ⊢
      rw [M.bind_def] at h
      rcases hl : itemsLoop W add file off (i + o) (ns || it.isNewStyle) (c1 ++ c2) s1 with ⟨y, s2⟩
      rw [hl] at h
      cases y with
      | error e => cases h
      | ok y =>
        cases h
        obtain ⟨r1, r2, i1, s3, h1, h2, h3, h4⟩ := ih hl
        refine ⟨it :: r1, r2, i1, s3, by rw [h1]; rfl, by simp [h2], ?_, ?_⟩
        · rw [M.bind_def, h3]; rfl
        · rw [List.any_cons, ← Bool.or_assoc]; exact h4

theorem itemsLoop_length {add : AddFn} {file : Str} {off i : Int} {ns : Bool} {c : List Chunk} {s t : Stash} {r : List Item}
    (h : itemsLoop W add file off i ns c s = (.ok r, t)) : r.length = c.length := by
  obtain ⟨r1, r2, i1, s1, h1, h2, -, h4⟩ := itemsLoop_append (c1 := c) (c2 := []) (by rwa [List.append_nil])
  cases h4
  rw [h1, List.append_nil, h2]

theorem chunksFrom_append (off : Int) (neg : Bool) (num : Nat) (a b : List (List Str)) :
    chunksFrom off neg num (a ++ b) = chunksFrom off neg num a ++ chunksFrom off neg (num + (a.map (fun g => g.flatten.count '\n')).sum) b := by
  induction a generalizing num with
  | nil => simp [chunksFrom]
  | cons x a ih =>
    simp only [List.cons_append, chunksFrom, ih, List.map_cons, List.sum_cons, countC, Nat.add_assoc]

theorem chunksFrom_length (off : Int) (neg : Bool) (num : Nat) (a : List (List Str)) : (chunksFrom off neg num a).length = a.length := by
  induction a generalizing num with
  | nil => rfl
  | cons x a ih => simp [chunksFrom, ih]

theorem chunksFrom_same (d off off' : Int) (neg : Bool) (num num' : Nat) (hd : (num : Int) + d = num') (gs : List (List Str)) :
    List.Forall₂ (SameChunk d off off') (chunksFrom off neg num gs) (chunksFrom off' neg num' gs) := by
  induction gs generalizing num num' with
  | nil => exact .nil
  | cons x gs ih =>
    refine .cons ⟨rfl, rfl, rfl, rfl, ?_⟩ (ih _ _ ?_)
    · simp only [mkChunk]; omega
    · push_cast; omega

theorem prepareLines_groups {file t : Str} {off : Int} {neg : Bool} {ls : List Str} {gs : List (List Str)} (hf : W.file file = .text t)
    (hl : IsLines (univNewlines t) ls) (hg : Groups ls gs) : prepareLines W file off neg = .ok (chunksFrom off neg 1 gs) := by
  unfold prepareLines
  rw [hf]
  rw [isLines_unique hl] at hg
  exact chunksOf_ok_iff.2 ⟨gs, hg, rfl⟩

theorem itemsLoop_constsOf (hv : KeepsTo db V) {n : Nat} {file : Str} (hw : FileWithin W V file) {lo : Int} {neg : Bool} {all : List Chunk}
    (hp : prepareLines W file lo neg = .ok all) {off i : Int} {ns : Bool} {cs : List Chunk} (hcs : ∀ c ∈ cs, c ∈ all) {s t : Stash}
    {r : List Item} (k : ConstsOf db s) (u : NoneAssigned V t) (h : itemsLoop W (addFile W n) file off i ns cs s = (.ok r, t)) : ConstsOf db t := by
  have hc : List.Forall₂ (SameChunk 0 off off) cs cs := by
    clear h hcs
    induction cs with
    | nil => exact .nil
    | cons c cs ih => exact .cons ⟨rfl, rfl, rfl, rfl, by omega⟩ ih
  exact ((both_itemsLoop (g := W.file) hv n n file hw hp i i ns hc hcs).main _ _ _ _ _ _ k k u u h h).2.1

theorem someNew_any {r : List Item} : r.any Item.isNewStyle = true ↔ SomeNew r := by
  simp [SomeNew, Item.isNewStyle]

theorem getItems_edit (hv : KeepsTo db V) {n n' : Nat} {f t t' : Str} {off off' : Int} {ns neg : Bool} {s s' u u' : Stash} {r r' : List Item}
    (hw : FileWithin W V f) (hw' : FileWithin (rewritten W g) V f) (k : ConstsOf db s) (k' : ConstsOf db s') (hu : NoneAssigned V u)
    (hu' : NoneAssigned V u')
    (hf : W.file f = .text t) (hf' : g f = .text t') {ls ls' : List Str} (hl : IsLines (univNewlines t) ls)
    (hl' : IsLines (univNewlines t') ls') {a m m' b : List (List Str)} (hg : Groups ls (a ++ m ++ b)) (hg' : Groups ls' (a ++ m' ++ b))
    (h : itemsLoop W (addFile W n) f off 0 ns (chunksFrom off neg 1 (a ++ m ++ b)) s = (.ok r, u))
    (h' : itemsLoop (rewritten W g) (addFile (rewritten W g) n') f off' 0 ns (chunksFrom off' neg 1 (a ++ m' ++ b)) s' = (.ok r', u')) :
    r.length = (a ++ m ++ b).length ∧ r'.length = (a ++ m' ++ b).length ∧
    (r.take a.length).map content = (r'.take a.length).map content ∧
    ((ns = true ∨ (SomeNew (r.take (a.length + m.length)) ↔ SomeNew (r'.take (a.length + m'.length)))) →
      (r.drop (a.length + m.length)).map (shifted ((lineEnds m' : Int) - lineEnds m)) = (r'.drop (a.length + m'.length)).map content) := by
  have hp : prepareLines W f off neg = .ok _ := prepareLines_groups hf hl hg
  have hp' : prepareLines (rewritten W g) f off' neg = .ok _ := prepareLines_groups (W := rewritten W g) hf' hl' hg'
  have e1 := itemsLoop_length h
  have e2 := itemsLoop_length h'
  rw [chunksFrom_length] at e1 e2
  refine ⟨e1, e2, ?_⟩
  rw [chunksFrom_append] at h h' hp hp'
  rw [chunksFrom_append] at h h' hp hp'
  obtain ⟨x, rb, i1, s1, rfl, l1, h1, h2⟩ := itemsLoop_append h
  obtain ⟨ra, rm, i2, s2, rfl, l2, h3, h4⟩ := itemsLoop_append h1
  obtain ⟨x', rb', i1', s1', rfl, l1', h1', h2'⟩ := itemsLoop_append h'
  obtain ⟨ra', rm', i2', s2', rfl, l2', h3', h4'⟩ := itemsLoop_append h1'
  simp only [List.length_append, chunksFrom_length] at l1 l2 l1' l2'
  have t1 : ((ra ++ rm) ++ rb).take a.length = ra := by rw [← l2]; simp
  have t2 : ((ra' ++ rm') ++ rb').take a.length = ra' := by rw [← l2']; simp
  have t3 : ((ra ++ rm) ++ rb).take (a.length + m.length) = ra ++ rm := by
    rw [← l1, ← List.length_append, List.take_left]
  have t4 : ((ra' ++ rm') ++ rb').take (a.length + m'.length) = ra' ++ rm' := by
    rw [← l1', ← List.length_append, List.take_left]
  have t5 : ((ra ++ rm) ++ rb).drop (a.length + m.length) = rb := by
    rw [← l1, ← List.length_append, List.drop_left]
  have t6 : ((ra' ++ rm') ++ rb').drop (a.length + m'.length) = rb' := by
    rw [← l1', ← List.length_append, List.drop_left]
  rw [t1, t2, t3, t4, t5, t6]
  have u1 : NoneAssigned V s1 := (down_itemsLoop _ _ _ _ _ _).ok h2 hu
  have u1' : NoneAssigned V s1' := (down_itemsLoop _ _ _ _ _ _).ok h2' hu'
  have u2 : NoneAssigned V s2 := (down_itemsLoop _ _ _ _ _ _).ok h4 u1
  have u2' : NoneAssigned V s2' := (down_itemsLoop _ _ _ _ _ _).ok h4' u1'
  have b1 := (both_itemsLoop (g := g) (d := 0) hv n n' f hw hp 0 0 ns (chunksFrom_same 0 off off' neg 1 1 (by omega) a)
    (by simp +contextual)).main _ _ _ _ _ _ k k' u2 u2' h3 h3'
  have k1 := itemsLoop_constsOf hv hw hp (by simp +contextual) b1.2.1 u1 h4
  have k1' := itemsLoop_constsOf hv hw' hp' (by simp +contextual) b1.2.2 u1' h4'
  refine ⟨by have := b1.1; rwa [show shifted 0 = content from funext shifted_zero] at this, fun hs => ?_⟩
  have hns : (ns || (ra' ++ rm').any Item.isNewStyle) = (ns || (ra ++ rm).any Item.isNewStyle) := by
    rcases hs with rfl | hs
    · rfl
    · congr 1
      rw [Bool.eq_iff_iff, someNew_any, someNew_any, hs]
  rw [hns] at h2'
  exact ((both_itemsLoop (g := g) hv n n' f hw hp i1 i1' _
    (chunksFrom_same _ off off' neg _ _ (by unfold lineEnds; simp only [List.map_append, List.sum_append]; push_cast; omega) b)
    (by simp +contextual)).main _ _ _ _ _ _ k1 k1' hu hu' h2 h2').1

theorem addFile_edit (hv : KeepsTo db V) {n n' : Nat} {path t t' : Str} {off off' : Int} {forced forced' : Option Str} {s s' u u' : Stash} {r r' : List Item}
    (hw : FileWithin W V (abspath W.cwd path)) (hw' : FileWithin (rewritten W g) V (abspath W.cwd path)) (k : ConstsOf db s) (k' : ConstsOf db s')
    (hu : NoneAssigned V u) (hu' : NoneAssigned V u')
    (hns : s'.newStyle = s.newStyle) (hneg : s'.negative = s.negative) (hnew : alreadySeen s (abspath W.cwd path) = false)
    (hnew' : alreadySeen s' (abspath W.cwd path) = false)
    (hf : W.file (abspath W.cwd path) = .text t) (hf' : g (abspath W.cwd path) = .text t') {ls ls' : List Str} (hl : IsLines (univNewlines t) ls)
    (hl' : IsLines (univNewlines t') ls') {a m m' b : List (List Str)} (hg : Groups ls (a ++ m ++ b)) (hg' : Groups ls' (a ++ m' ++ b))
    (h : addFile W n path off forced s = (.ok r, u)) (h' : addFile (rewritten W g) n' path off' forced' s' = (.ok r', u')) :
    r.length = (a ++ m ++ b).length ∧ r'.length = (a ++ m' ++ b).length ∧
    (r.take a.length).map content = (r'.take a.length).map content ∧
    ((s.newStyle = true ∨ (SomeNew (r.take (a.length + m.length)) ↔ SomeNew (r'.take (a.length + m'.length)))) →
      (r.drop (a.length + m.length)).map (shifted ((lineEnds m' : Int) - lineEnds m)) = (r'.drop (a.length + m'.length)).map content) := by
  cases n with
  | zero => cases h
  | succ n =>
  cases n' with
  | zero => cases h'
  | succ n' =>
  obtain ⟨hs, -⟩ | ⟨-, ⟨ok⟩⟩ := addFile_ok W h
  · rw [hnew] at hs; cases hs
  obtain ⟨hs, -⟩ | ⟨-, ⟨ok'⟩⟩ := addFile_ok (rewritten W g) h'
  · rw [show alreadySeen s' (abspath (rewritten W g).cwd path) = false from hnew'] at hs; cases hs
  have e1 := ok.loop
  have e2 := ok'.loop
  have p1 := ok.prep
  have p2 := ok'.prep
  rw [hns] at e2
  rw [hneg] at p2
  rw [prepareLines_groups hf hl hg] at p1
  have p2 := (prepareLines_groups (W := rewritten W g) (off := off') (neg := s.negative) hf' hl' hg').symm.trans p2
  rw [← Except.ok.inj p1] at e1
  rw [← Except.ok.inj p2] at e2
  obtain ⟨q1, q2, q3, q4⟩ := getItems_edit hv hw hw' (show ConstsOf db (markSeen s (abspath W.cwd path)) from k)
    (show ConstsOf db (markSeen s' (abspath W.cwd path)) from k') (down_addOk ok hu) (down_addOk ok' hu') hf hf' hl hl' hg hg' e1 e2
  have fin : r.map content = ok.its.map content ∧ r'.map content = ok'.its.map content := ⟨crossLink_content ok.cross, crossLink_content ok'.cross⟩
  generalize ok.its = its at q1 q3 q4 fin
  generalize ok'.its = its' at q2 q3 q4 fin
  obtain ⟨e1, e2⟩ := fin
  have new : ∀ {l l' : List Item}, l.map content = l'.map content → (SomeNew l ↔ SomeNew l') := by
    have : ∀ {l l' : List Item}, l.map content = l'.map content → SomeNew l → SomeNew l' := by
      rintro l l' e ⟨x, hx, hd⟩
      have : content x ∈ l'.map content := e ▸ List.mem_map_of_mem hx
      obtain ⟨y, hy, he⟩ := List.mem_map.1 this
      refine ⟨y, hy, ?_⟩
      rw [← hd]
      exact show (content y).delim = (content x).delim by rw [he]
    exact fun {_ _} e => ⟨this e, this e.symm⟩
  have mv : ∀ {d : Int} {l l' : List Item}, l.map content = l'.map content → l.map (shifted d) = l'.map (shifted d) := by
    intro d l l' e
    have : ∀ l : List Item, l.map (shifted d) = (l.map content).map (shifted d) := fun l => by
      rw [List.map_map]; rfl
    rw [this l, this l', e]
  have tk : ∀ k, (r.take k).map content = (its.take k).map content := fun k => by rw [List.map_take, List.map_take, e1]
  have tk' : ∀ k, (r'.take k).map content = (its'.take k).map content := fun k => by rw [List.map_take, List.map_take, e2]
  have dr : ∀ k, (r.drop k).map content = (its.drop k).map content := fun k => by rw [List.map_drop, List.map_drop, e1]
  have dr' : ∀ k, (r'.drop k).map content = (its'.drop k).map content := fun k => by rw [List.map_drop, List.map_drop, e2]
  refine ⟨?_, ?_, by rw [tk, tk', q3], fun hs => ?_⟩
  · rw [← q1]; simpa using congrArg List.length e1
  · rw [← q2]; simpa using congrArg List.length e2
  · rw [mv (dr _), dr']
    refine q4 (hs.imp_right fun hs => ?_)
    rw [← new (tk _), ← new (tk' _)]
    exact hs

end

/-! ## replacing statements -/

theorem isGroup_follow {x rest rest' : List Str} (h : IsGroup x rest) (hne : rest ≠ [])
    (hh : ∀ l ∈ rest'.head?, (NameStart l ∧ ¬ CommentLine l) ∨ l ∈ rest.head?) : IsGroup x rest' := by
  rcases h with h | h | h | h | h
  · exact .inl h
  · obtain ⟨h, body, h1, h2, h3, h4, h5, h6⟩ := h
    exact .inr (.inl ⟨h, body, h1, h2, h3, h4, h5, .inl (h6.resolve_right hne)⟩)
  · obtain ⟨h, t, h1, h2, h3, h4, h5, h6⟩ := h
    exact .inr (.inr (.inl ⟨h, t, h1, h2, h3, h4, h5, fun l hl => (hh l hl).elim (·.2) (h6 l)⟩))
  · obtain ⟨h, t, h1, h2, h3, h4, h5, h6, h7⟩ := h
    exact .inr (.inr (.inr (.inl ⟨h, t, h1, h2, h3, h4, h5, h6, fun l hl => (hh l hl).elim (·.1) (h7 l)⟩)))
  · exact .inr (.inr (.inr (.inr h)))

theorem groups_right {ls : List Str} {a b : List (List Str)} (h : Groups ls (a ++ b)) : Groups b.flatten b := by
  induction a generalizing ls with
  | nil =>
    have := groups_flatten h
    rw [List.nil_append] at this h
    rw [this]; exact h
  | cons x a ih =>
    cases h with
    | cons _ h => exact ih h

theorem statement_isGroup {x : List Str} (h : Statement x) (rest : List Str) : IsGroup x rest := by
  rcases h.1 with h | ⟨⟨hd, body, h1, h2, h3, h4, h5, h6⟩, he⟩ | h
  · exact .inl h
  · exact .inr (.inl ⟨hd, body, h1, h2, h3, h4, h5, .inl (by rw [h1] at he; exact he)⟩)
  · exact .inr (.inr (.inr (.inr h)))

theorem statements_groups {ms b : List (List Str)} (h : ∀ m ∈ ms, Statement m) (hb : Groups b.flatten b) : Groups (ms ++ b).flatten (ms ++ b) := by
  induction ms with
  | nil => exact hb
  | cons x ms ih =>
    rw [List.cons_append, List.flatten_cons]
    exact .cons (statement_isGroup (h x (by simp)) _) (ih fun m hm => h m (by simp [hm]))

theorem flatten_ne_nil {l : List (List Str)} (hl : ∀ x ∈ l, x ≠ []) (h : l ≠ []) : l.flatten ≠ [] := by
  cases l with
  | nil => exact absurd rfl h
  | cons x l => simp [hl x (by simp)]

theorem groups_replace {ls : List Str} {a m0 ms b : List (List Str)} (h : Groups ls (a ++ m0 ++ b)) (hne : m0 ++ b ≠ []) (hms : ms ≠ [])
    (hs : ∀ m ∈ ms, Statement m) : Groups (a ++ ms ++ b).flatten (a ++ ms ++ b) := by
  have hb : Groups b.flatten b := groups_right h
  have hm := statements_groups hs hb
  rw [List.append_assoc] at h ⊢
  induction a generalizing ls with
  | nil => exact hm
  | cons x a ih =>
    cases h with
    | @cons _ rest _ hx hr =>
      rw [List.cons_append, List.flatten_cons]
      have hrest := groups_flatten hr
      refine .cons (isGroup_follow hx ?_ ?_) (ih hr)
      · rw [← hrest]
        exact flatten_ne_nil (groups_nonempty hr) (by simp_all)
      · intro l hl
        cases a with
        | nil =>
          left
          cases ms with
          | nil => exact absurd rfl hms
          | cons m ms =>
            have hm1 := (hs m (by simp)).2.1
            have : m ≠ [] := isGroup_ne_nil (statement_isGroup (hs m (by simp)) [])
            refine hm1 l ?_
            cases m with
            | nil => exact absurd rfl this
            | cons y m => simpa using hl
        | cons y a =>
          right
          have hy : y ≠ [] := groups_nonempty hr y (by simp)
          rw [← hrest]
          cases y with
          | nil => exact absurd rfl hy
          | cons z y => simpa using hl

theorem isLines_replace {t : Str} {ls : List Str} {a m0 ms b : List (List Str)} (hl : IsLines t ls) (h : Groups ls (a ++ m0 ++ b))
    (hne : m0 ++ b ≠ []) (hs : ∀ m ∈ ms, Statement m) : IsLines (a ++ ms ++ b).flatten.flatten (a ++ ms ++ b).flatten := by
  obtain ⟨-, h2, h3, h4⟩ := hl
  have hls := groups_flatten h
  have hne' : (m0 ++ b).flatten ≠ [] := flatten_ne_nil (fun x hx => groups_nonempty h x (by simp at hx ⊢; tauto)) hne
  have hM : ∀ l ∈ ms.flatten, ∃ a, l = a ++ ['\n'] ∧ '\n' ∉ a := by
    intro l hl
    obtain ⟨m, hm, hlm⟩ := List.mem_flatten.1 hl
    exact (hs m hm).2.2 l hlm
  have hA : ∀ l ∈ a.flatten, l ∈ ls.dropLast := by
    intro l hl
    rw [← hls, List.append_assoc, List.flatten_append, List.dropLast_append_of_ne_nil hne']
    simp [hl]
  have hB : ∀ l ∈ b.flatten, l ∈ ls := by
    intro l hl
    rw [← hls]
    simp only [List.flatten_append, List.mem_append]
    exact .inr hl
  have hB' : ∀ l ∈ b.flatten.dropLast, l ∈ ls.dropLast := by
    intro l hl
    have hb : b.flatten ≠ [] := by rintro e; rw [e] at hl; simp at hl
    rw [← hls, List.flatten_append, List.dropLast_append_of_ne_nil hb]
    simp only [List.mem_append]
    exact .inr hl
  refine ⟨rfl, ?_, ?_, ?_⟩
  · intro l hl
    simp only [List.flatten_append, List.mem_append] at hl
    rcases hl with (hl | hl) | hl
    · exact h2 l (List.mem_of_mem_dropLast (hA l hl))
    · obtain ⟨x, rfl, -⟩ := hM l hl
      simp
    · exact h2 l (hB l hl)
  · intro l hl
    simp only [List.flatten_append, List.mem_append] at hl
    rcases hl with (hl | hl) | hl
    · exact h3 l (List.mem_of_mem_dropLast (hA l hl))
    · obtain ⟨x, rfl, hx⟩ := hM l hl
      simpa using hx
    · exact h3 l (hB l hl)
  · intro l hl
    by_cases hb : b.flatten = []
    · simp only [List.flatten_append, hb, List.append_nil] at hl
      by_cases hm : ms.flatten = []
      · rw [hm, List.append_nil] at hl
        exact h4 l (hA l (List.mem_of_mem_dropLast hl))
      · rw [List.dropLast_append_of_ne_nil hm, List.mem_append] at hl
        rcases hl with hl | hl
        · exact h4 l (hA l hl)
        · obtain ⟨x, rfl, -⟩ := hM l (List.mem_of_mem_dropLast hl)
          simp
    · rw [List.flatten_append, List.dropLast_append_of_ne_nil hb, List.mem_append, List.flatten_append, List.mem_append] at hl
      rcases hl with (hl | hl) | hl
      · exact h4 l (hA l hl)
      · obtain ⟨x, rfl, -⟩ := hM l hl
        simp
      · exact h4 l (hB' l hl)

end Oelint

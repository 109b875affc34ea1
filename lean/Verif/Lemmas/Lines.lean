import Verif.Spec.Lines
import Verif.Lemmas.Order
/-! # `Line` of the items of a file and of the files it loads -/
set_option linter.unusedSectionVars false
set_option linter.unusedSimpArgs false
namespace Oelint
variable [Uni]
open Spec

/-- the calls of `AddFile` of an item, with what they return; `none` for files that are skipped -/
inductive Ran (W : World) (n : Nat) (file : Str) (lineno : Int) : Stash → List (Str × Option (List Item)) → Stash → Prop
  | done {s} : Ran W n file lineno s [] s
  | uid {s l s'} : Ran W n file lineno { s with nextUid := s.nextUid + 1 } l s' → Ran W n file lineno s l s'
  | skip {s p l s'} : alreadySeen s (abspath W.cwd p) = true → Ran W n file lineno s l s' → Ran W n file lineno s ((p, none) :: l) s'
  | read {s p tmp s1 l s'} : alreadySeen s (abspath W.cwd p) = false → addFile W n p lineno (some file) s = (.ok tmp, s1) →
      Ran W n file lineno s1 l s' → Ran W n file lineno s ((p, some tmp) :: l) s'

/-- the growth of the offset -/
def grow (l : List (Str × Option (List Item))) : Int := (l.map (fun e => (e.2.map maxInFileLine).getD 0)).sum

theorem grow_append (a b : List (Str × Option (List Item))) : grow (a ++ b) = grow a + grow b := by
  unfold grow; simp

variable {W : World} {n : Nat} {file : Str}

theorem Ran.append {lineno : Int} {s s1 s2 : Stash} {a b : List (Str × Option (List Item))} (h1 : Ran W n file lineno s a s1)
    (h2 : Ran W n file lineno s1 b s2) : Ran W n file lineno s (a ++ b) s2 := by
  induction h1 with
  | done => exact h2
  | uid _ ih => exact .uid (ih h2)
  | skip h _ ih => exact .skip h (ih h2)
  | read h h' _ ih => exact .read h h' (ih h2)

theorem Ran.rel {lineno : Int} {R : Stash → Stash → Prop} (hr : ∀ a, R a a) (ht : ∀ a b c, R a b → R b c → R a c)
    (hu : ∀ s, R s { s with nextUid := s.nextUid + 1 }) (ha : ∀ p o f, M.Rel R (addFile W n p o f)) {s s' : Stash}
    {l : List (Str × Option (List Item))} (h : Ran W n file lineno s l s') : R s s' := by
  induction h with
  | done => exact hr _
  | uid _ ih => exact ht _ _ _ (hu _) ih
  | skip _ _ ih => exact ih
  | @read s p tmp s1 l s' _ h _ ih =>
    refine ht _ _ _ ?_ ih
    have := ha p lineno (some file) s
    rw [h] at this
    exact this

/-- the state in which a file was read or skipped -/
theorem Ran.mem {lineno : Int} {R : Stash → Stash → Prop} (hr : ∀ a, R a a) (ht : ∀ a b c, R a b → R b c → R a c)
    (hu : ∀ s, R s { s with nextUid := s.nextUid + 1 }) (ha : ∀ p o f, M.Rel R (addFile W n p o f)) {s s' : Stash}
    {l : List (Str × Option (List Item))} (h : Ran W n file lineno s l s') {p : Str} {o : Option (List Item)} (hm : (p, o) ∈ l) :
    ∃ a b, R s a ∧ R b s' ∧ (o = none → alreadySeen a (abspath W.cwd p) = true) ∧
      ∀ tmp, o = some tmp → alreadySeen a (abspath W.cwd p) = false ∧ addFile W n p lineno (some file) a = (.ok tmp, b) := by
  induction h with
  | done => cases hm
  | uid _ ih =>
    obtain ⟨a, b, h1, h2⟩ := ih hm
    exact ⟨a, b, ht _ _ _ (hu _) h1, h2⟩
  | @skip s q l s' hs hl ih =>
    rcases List.mem_cons.1 hm with e | hm
    · cases e
      exact ⟨s, s, hr _, hl.rel hr ht hu ha, fun _ => hs, fun tmp h => by cases h⟩
    · exact ih hm
  | @read s q tmp s1 l s' hs hadd hl ih =>
    have h1 : R s s1 := by
      have := ha q lineno (some file) s
      rw [hadd] at this
      exact this
    rcases List.mem_cons.1 hm with e | hm
    · cases e
      exact ⟨s, s1, hr _, hl.rel hr ht hu ha, fun h => (by cases h), fun t e => by cases e; exact ⟨hs, hadd⟩⟩
    · obtain ⟨a, b, h2, h3⟩ := ih hm
      exact ⟨a, b, ht _ _ _ h1 h2, h3⟩

theorem ran_add {lineno : Int} {s s1 s2 : Stash} {p : Str} {tmp : List Item} {l : List (Str × Option (List Item))}
    (h : addFile W n p lineno (some file) s = (.ok tmp, s1)) (h2 : Ran W n file lineno s1 l s2) :
    ∃ o, Ran W n file lineno s ((p, o) :: l) s2 ∧ (o.map maxInFileLine).getD 0 = maxInFileLine tmp := by
  cases hs : alreadySeen s (abspath W.cwd p) with
  | false => exact ⟨some tmp, .read hs h h2, rfl⟩
  | true =>
    cases n with
    | zero => cases h
    | succ n =>
      rw [addFile_seen _ _ hs] at h
      cases h
      exact ⟨none, .skip hs h2, rfl⟩

theorem inheritLoop_ran (lineno : Int) (inhname : Str) (locs l found : List Str) (off : Int) (s s' : Stash)
    (r : List Str × Int) (h : inheritLoop W (addFile W n) file lineno inhname locs l found off s = (.ok r, s')) :
    ∃ ps, Ran W n file lineno s ps s' ∧ (∀ p, p ∈ r.1 ↔ p ∈ found ∨ p ∈ ps.map (·.1)) ∧ r.2 = off + grow ps := by
  induction l generalizing found off s with
  | nil =>
    cases h
    exact ⟨[], .done, by simp, by simp [grow]⟩
  | cons inh rest ih =>
    rw [inheritLoop] at h
    obtain ⟨path, s1, h1, h0⟩ := M.bind_ok.1 h
    clear h
    have hs1 := M.lift_ok h1
    subst hs1
    split at h0
    · exact ih _ _ _ h0
    · obtain ⟨ign, s2, h2, h⟩ := M.bind_ok.1 h0
      clear h0
      have hs2 := M.ask_ok h2
      subst hs2
      split at h
      · exact ih _ _ _ h
      · obtain ⟨tmp, s3, h3, h⟩ := M.bind_ok.1 h
        obtain ⟨ps, hps, hm, hg⟩ := ih _ _ _ h
        obtain ⟨o, ho, hv⟩ := ran_add h3 hps
        refine ⟨(path, o) :: ps, ho, fun p => ?_, ?_⟩
        · rw [hm p]
          split
          · rename_i hc
            have hc : path ∈ found := by simpa using hc
            simp only [List.map_cons, List.mem_cons]
            constructor
            · rintro (h | h)
              · exact Or.inl h
              · exact Or.inr (Or.inr h)
            · rintro (h | h | h)
              · exact Or.inl h
              · subst h; exact Or.inl hc
              · exact Or.inr h
          · simp [List.mem_append, or_assoc]
        · rw [hg]
          simp only [grow, List.map_cons, List.sum_cons, hv]
          omega

/-- the calls are those that the new item reports -/
def RanAll (ls : List (Str × Option (List Item))) : Option (Item × Int) → Prop
  | none => ls = []
  | some r => (∀ p, p ∈ ls.map (·.1) ↔ p ∈ r.1.payload.loaded) ∧ r.2 = grow ls ∧
      (r.1.payload.classifier = c!"Include" → ls.length ≤ 1)

theorem handleKind_ran (lineno : Int) (p : Params) (k : Kind) (pat : Pattern) (m : Mt) (s s' : Stash)
    (r : Option (Item × Int)) (h : handleKind W (addFile W n) file lineno p k pat m s = (.ok r, s')) :
    ∃ ls, Ran W n file lineno s ls s' ∧ RanAll ls r := by
  have hsimple : ∀ (it : Nat → Item) (s s' : Stash) (r : Option (Item × Int)),
      (do let uid ← freshUid; pure (some (it uid, (0 : Int))) : M (Option (Item × Int))) s = (.ok r, s') →
      (∀ u, (it u).payload.loaded = []) → ∃ ls, Ran W n file lineno s ls s' ∧ RanAll ls r := by
    intro it s s' r h hl
    obtain ⟨uid, s1, h1, h2⟩ := M.bind_ok.1 h
    cases h1; cases h2
    refine ⟨[], .uid .done, fun p => ?_, rfl, fun _ => by simp⟩
    rw [hl]; rfl
  cases k <;> unfold handleKind at h <;> simp only at h
  case vars => exact hsimple _ _ _ _ h fun u => mkVariable_loaded _ _ _ _ _
  case func =>
    obtain ⟨known, s1, h1, h⟩ := M.bind_ok.1 h
    cases M.ask_ok h1
    exact hsimple _ _ _ _ h fun u => mkFunction_loaded _ _ _ _ _ _ _
  case inherit | inheritGlob =>
    obtain ⟨inhname, s1, h1, h⟩ := M.bind_ok.1 h
    cases M.ask_ok h1
    obtain ⟨⟨found, off⟩, s2, h2, h⟩ := M.bind_ok.1 h
    obtain ⟨ps, hps, hm, hg⟩ := inheritLoop_ran _ _ _ _ _ _ _ _ _ h2
    obtain ⟨uid, s3, h3, h4⟩ := M.bind_ok.1 h
    cases h3; cases h4
    refine ⟨ps ++ [], hps.append (.uid .done), fun q => ?_, ?_, fun h => by cases h⟩
    · have := hm q
      simp only [List.not_mem_nil, false_or] at this
      simp only [List.append_nil]
      exact this.symm
    · simp only [List.append_nil]
      simpa using hg
  case addtask =>
    split at h
    · cases h; exact ⟨[], .done, rfl⟩
    · exact hsimple _ _ _ _ h fun u => mkTaskAdd_loaded _ _ _ _ _ _
  case deltask => exact hsimple _ _ _ _ h fun u => mkTaskDel_loaded _ _ _ _
  case «include» =>
    obtain ⟨name, s1, h1, h⟩ := M.bind_ok.1 h
    cases M.ask_ok h1
    obtain ⟨path, s2, h2, h⟩ := M.bind_ok.1 h
    cases M.lift_ok h2
    split at h
    · exact hsimple _ _ _ _ h fun u => rfl
    · rename_i hne
      obtain ⟨ign, s3, h3, h⟩ := M.bind_ok.1 h
      cases M.ask_ok h3
      split at h
      · cases h; exact ⟨[], .done, rfl⟩
      · obtain ⟨tmp, s4, h4, h⟩ := M.bind_ok.1 h
        obtain ⟨uid, s5, h5, h6⟩ := M.bind_ok.1 h
        cases h5; cases h6
        obtain ⟨o, ho, hv⟩ := ran_add h4 (.uid .done)
        refine ⟨[(path, o)], ho, fun q => ?_, ?_, fun _ => by simp⟩
        · simp only [mkItem, mkItemD, Payload.loaded]
          rw [if_neg hne]; rfl
        · simp [grow, hv]
  all_goals exact hsimple _ _ _ _ h fun u => rfl

theorem classify_ran (lineno : Int) (p : Params) (cnt : Str) (l : List (Kind × Pattern)) (s s' : Stash) (r : Item × Int)
    (h : classify W (addFile W n) file lineno p cnt l s = (.ok r, s')) :
    ∃ ls, Ran W n file lineno s ls s' ∧ RanAll ls (some r) := by
  induction l generalizing s with
  | nil =>
    rw [classify] at h
    obtain ⟨uid, s1, h1, h2⟩ := M.bind_ok.1 h
    cases h1; cases h2
    exact ⟨[], .uid .done, fun p => Iff.rfl, rfl, fun _ => by simp⟩
  | cons kp rest ih =>
    obtain ⟨k, pat⟩ := kp
    rw [classify] at h
    cases hm : reMatch pat.re cnt with
    | none => rw [hm] at h; exact ih _ h
    | some m =>
      rw [hm] at h
      obtain ⟨x, s1, h1, h⟩ := M.bind_ok.1 h
      obtain ⟨ps, hps, hr⟩ := handleKind_ran _ _ _ _ _ _ _ _ h1
      cases x with
      | some x => cases h; exact ⟨ps, hps, hr⟩
      | none =>
        obtain ⟨qs, hqs, hr'⟩ := ih _ h
        have : ps = [] := hr
        subst this
        exact ⟨qs, hps.append hqs, hr'⟩

/-- the items of a file with the runs between them -/
theorem itemsLoop_ran {R : Stash → Stash → Prop} (hr : ∀ a, R a a) (ht : ∀ a b c, R a b → R b c → R a c)
    (hu : ∀ s, R s { s with nextUid := s.nextUid + 1 }) (ha : ∀ p o f, M.Rel R (addFile W n p o f))
    (lineOffset off : Int) (ns : Bool) (cs : List Chunk) (s s' : Stash) (its : List Item)
    (h : itemsLoop W (addFile W n) file lineOffset off ns cs s = (.ok its, s')) :
    ∃ loads, List.Forall₂ (fun x l => ∃ sA sB, R s sA ∧ R sB s' ∧ Ran W n file (lineOffset + x.inFileLine) sA l sB ∧
        (∀ p, p ∈ l.map (·.1) ↔ p ∈ x.payload.loaded) ∧ (x.payload.classifier = c!"Include" → l.length ≤ 1)) its loads ∧
      ∀ pre it post, its = pre ++ it :: post → it.line = lineOffset + it.inFileLine + off + grow (loads.take pre.length).flatten := by
  induction cs generalizing off ns s its with
  | nil => cases h; exact ⟨[], .nil, fun pre it post he => by simp at he⟩
  | cons c cs ih =>
    rw [itemsLoop] at h
    obtain ⟨⟨it, d⟩, s1, h1, h⟩ := M.bind_ok.1 h
    obtain ⟨rest, s2, h2, h⟩ := M.bind_ok.1 h
    cases h
    obtain ⟨l, hl, hm, hg, hi⟩ := classify_ran _ _ _ _ _ _ _ h1
    obtain ⟨loads, hf, hline⟩ := ih _ _ _ _ h2
    have hp := (classify_post W _ _ (addPos_addFile W n) _ _ _ _ _ _ _ h1).1
    have hc : lineOffset + it.inFileLine = c.line := by rw [hp.inFileLine]; simp [chunkParams]; omega
    have h01 : R s s1 := hl.rel hr ht hu ha
    have h12 : R s1 s' := by
      have := itemsLoop_rel hr ht hu W file ha lineOffset (off + d) (ns || it.isNewStyle) cs s1
      rw [h2] at this
      exact this
    refine ⟨l :: loads, .cons ⟨s, s1, hr _, h12, by rw [hc]; exact hl, hm, hi⟩ (hf.imp ?_), ?_⟩
    · rintro x l ⟨sA, sB, h3, h4⟩
      exact ⟨sA, sB, ht _ _ _ h01 h3, h4⟩
    · intro pre x post he
      cases pre with
      | nil =>
        simp only [List.nil_append, List.cons.injEq] at he
        obtain ⟨rfl, -⟩ := he
        have : it.line = c.line + off := by rw [hp.line]; simp [chunkParams]
        rw [this, hc]; simp [grow]
      | cons y pre =>
        simp only [List.cons_append, List.cons.injEq] at he
        have := hline pre x post he.2
        rw [this]
        simp only [List.length_cons, List.take_succ_cons, List.flatten_cons, grow_append]
        simp only at hg
        omega

theorem maxInFileLine_last {l : List Item} (h : l.Pairwise (fun a b => a.inFileLine < b.inFileLine)) :
    maxInFileLine l = lastStart l := by
  unfold maxInFileLine lastStart
  cases l with
  | nil => rfl
  | cons x xs =>
    simp only [List.map_cons]
    induction xs generalizing x with
    | nil => rfl
    | cons y ys ih =>
      rw [List.pairwise_cons] at h
      have h1 := h.1 y (by simp)
      have e : max x.inFileLine y.inFileLine = y.inFileLine := by omega
      rw [List.map_cons, List.foldl_cons, e, ih y h.2]
      simp [List.getLast?_cons_cons]

theorem addFile_lastStart {path : Str} {off : Int} {forced : Option Str} {s s' : Stash} {res : List Item}
    (h : addFile W n path off forced s = (.ok res, s')) : maxInFileLine res = lastStart res := by
  rcases addFile_cases h with rfl | ⟨t, _, _, _, ⟨ok⟩⟩
  · rfl
  · exact maxInFileLine_last ok.increasing_inFile

theorem loaded_loadedBy (x : Item) : x.payload.loaded = loadedBy x := by
  unfold Payload.loaded loadedBy
  cases x.payload <;> try rfl
  rename_i p _
  cases p <;> rfl

/-- what a step of a run keeps -/
def Steady (s s' : Stash) : Prop := SeenGrow s s' ∧ Keeps s s' ∧ (ClassesOnly s → ClassesOnly s')

theorem steady_refl (W : World) (a : Stash) : Steady a a := ⟨(seenGrow_step W).refl a, Keeps.refl a, fun h => h⟩
theorem steady_trans (W : World) (a b c : Stash) (h1 : Steady a b) (h2 : Steady b c) : Steady a c :=
  ⟨(seenGrow_step W).trans _ _ _ h1.1 h2.1, Keeps.trans _ _ _ h1.2.1 h2.2.1, fun h => h2.2.2 (h1.2.2 h)⟩

theorem addFile_steady (p : Str) (o : Int) (f : Option Str) : M.Rel Steady (addFile W n p o f) := fun s =>
  ⟨addFile_rel (seenGrow_step W) n p o f s, addFile_keeps W n p o f s, addFile_rel (classesOnly_step W) n p o f s⟩

theorem shiftLines_mem_split {mx : Int} {its pre post : List Item} {it : Item} (h : shiftLines mx its = pre ++ it :: post) :
    ∃ pre0 it0 post0, its = pre0 ++ it0 :: post0 ∧ pre.length = pre0.length ∧ it = { it0 with line := it0.line + mx } := by
  unfold shiftLines at h
  obtain ⟨p, q, h1, h2, h3⟩ := List.map_eq_append_iff.1 h
  obtain ⟨x, q', h4, h5, h6⟩ := List.map_eq_cons_iff.1 h3
  exact ⟨p, x, q', by rw [h1, h4], by rw [← h2]; simp, h5.symm⟩

theorem addFile_laid (path : Str) (off : Int) (forced : Option Str) (s s' s2 : Stash) (res : List Item)
    (h : addFile W n path off forced s = (.ok res, s')) (hc : ClassesOnly s) (hk : Keeps s' s2) (seen : Str → Prop)
    (hseen : ∀ f, seen f → alreadySeen s f = true) : Laid W seen s2.items n path off res := by
  induction n generalizing path off forced s s' res with
  | zero => cases h
  | succ n ih =>
    rw [Laid]
    rcases addFile_ok W h with ⟨_, rfl, rfl⟩ | ⟨hs, ⟨ok⟩⟩
    · exact ⟨0, [], Int.le_refl _, fun _ => ⟨rfl, List.nil_sublist _⟩, by simp, .nil, fun pre it post he => by simp at he⟩
    · obtain ⟨mx, hmx, hres, hz⟩ := crossLink_post _ _ _ _ _ ok.cross
      obtain ⟨loads, hf, hl⟩ := itemsLoop_ran (R := Steady) (steady_refl W) (steady_trans W)
        (fun s => ⟨(seenGrow_step W).uid s, Keeps.refl s, (classesOnly_step W).uid s⟩) addFile_steady _ _ _ _ _ _ _ ok.loop
      have hmark : Steady s (markSeen s (abspath W.cwd path)) :=
        ⟨(seenGrow_step W).mark _ _, Keeps.refl s, (classesOnly_step W).mark _ _⟩
      have hkeep' : Keeps ok.s1 s' := by
        have hx := crossLink_lifted W (abspath W.cwd path) ok.its { ok.s1 with map := enterMap ok.s1.map (abspath W.cwd path) forced }
        rw [ok.cross] at hx
        have hdi := addDistroMachine_rel (R := fun s s' => s'.items = s.items) (fun _ => rfl) (fun _ _ _ h1 h2 => h2.trans h1)
          (fun _ _ => rfl) W (abspath W.cwd path) ok.s3
        rw [ok.distro] at hdi
        have hfin : s'.items = ok.s4.items ++ res := (congrArg Stash.items ok.final).trans rfl
        refine ⟨_, hx.items, ?_⟩
        rw [hfin, hdi]
        exact List.prefix_append _ _
      refine ⟨mx, loads, hmx, fun hb => ⟨?_, ?_⟩, addFile_origin h, ?_, ?_⟩
      · exact hz (by
          cases hh : endsWith c!".bbappend" (abspath W.cwd path) with
          | false => rfl
          | true => exact absurd (endsWith_iff.1 hh) hb)
      · have hfin : s'.items = ok.s4.items ++ res := (congrArg Stash.items ok.final).trans rfl
        obtain ⟨l, hl1, hl2⟩ := hk
        rw [hfin] at hl1
        obtain ⟨a', c', rfl, hr⟩ := raised_suffix hl1
        have := raised_same hr (fun x hx => by rw [addFile_origin h x hx]; exact hb)
        subst this
        exact (List.sublist_append_right _ _).trans hl2.sublist
      · have key : ∀ x l, (∃ sA sB, Steady (markSeen s (abspath W.cwd path)) sA ∧ Steady sB ok.s1 ∧
            Ran W n (abspath W.cwd path) (off + x.inFileLine) sA l sB ∧
            (∀ p, p ∈ l.map (·.1) ↔ p ∈ x.payload.loaded) ∧ (x.payload.classifier = c!"Include" → l.length ≤ 1)) →
          (∀ p, p ∈ l.map (·.1) ↔ p ∈ loadedBy x) ∧ (x.payload.classifier = c!"Include" → l.length ≤ 1) ∧
          (∀ p, (p, none) ∈ l → ¬ Reread (abspath W.cwd p)) ∧
          ∀ p sub, (p, some sub) ∈ l → (¬ Reread (abspath W.cwd p) → ¬ seen (abspath W.cwd p)) ∧
            (∀ t, W.file (abspath W.cwd p) = .text t → (sub.map (·.realRaw)).flatten = univNewlines t) ∧
            Laid W seen s2.items n p (off + x.inFileLine) sub := by
          rintro x l ⟨sA, sB, h1, h2, h3, h4, h5⟩
          have hmem := fun p o (hm : (p, o) ∈ l) => h3.mem (R := Steady) (steady_refl W) (steady_trans W)
            (fun s => ⟨(seenGrow_step W).uid s, Keeps.refl s, (classesOnly_step W).uid s⟩) addFile_steady hm
          refine ⟨fun p => by rw [h4, loaded_loadedBy], h5, fun p hm hre => ?_, fun p sub hm => ?_⟩
          · obtain ⟨a, b, h6, h7, h8, h9⟩ := hmem p none hm
            have hca := h6.2.2 (h1.2.2 (hmark.2.2 hc))
            rw [not_alreadySeen hca hre] at h8
            exact absurd (h8 rfl) (by simp)
          · obtain ⟨a, b, h6, h7, h8, h9⟩ := hmem p (some sub) hm
            obtain ⟨h10, h11⟩ := h9 sub rfl
            have hsa : Steady s a := steady_trans W _ _ _ hmark (steady_trans W _ _ _ h1 h6)
            refine ⟨fun _ hp => ?_, fun t ht => ?_, ?_⟩
            · have := alreadySeen_grow hsa.1 (hseen _ hp)
              rw [h10] at this; cases this
            · obtain ⟨_, ⟨fo⟩⟩ := addFile_file h11 h10 ht
              exact fo.text
            · exact ih p _ _ a b sub h11 (hsa.2.2 hc)
                (Keeps.trans _ _ _ h7.2.1 (Keeps.trans _ _ _ h2.2.1 (Keeps.trans _ _ _ hkeep' hk)))
                (fun f hf => alreadySeen_grow hsa.1 (hseen f hf))
        rw [hres]
        unfold shiftLines
        rw [List.forall₂_map_left_iff]
        exact hf.imp (fun x l hx => key _ l hx)
      · intro pre it post he
        rw [hres] at he
        obtain ⟨pre0, it0, post0, h1, h2, rfl⟩ := shiftLines_mem_split he
        have h3 := hl pre0 it0 post0 h1
        have h4 : grow (loads.take pre.length).flatten = moved (loads.take pre.length).flatten := by
          unfold grow moved
          refine congrArg List.sum (List.map_congr_left fun e he => ?_)
          obtain ⟨p, o⟩ := e
          cases o with
          | none => rfl
          | some tmp =>
            obtain ⟨l, hl1, hl2⟩ := List.mem_flatten.1 he
            obtain ⟨x, hx, sA, sB, _, _, h6, _⟩ := forall₂_mem_right hf (List.mem_of_mem_take hl1)
            obtain ⟨a, b, _, _, _, h9⟩ := h6.mem (R := fun _ _ => True) (fun _ => trivial) (fun _ _ _ _ _ => trivial)
              (fun _ => trivial) (fun _ _ _ _ => trivial) hl2
            exact addFile_lastStart (h9 tmp rfl).2
        rw [← h4, h2]
        show it0.line + mx = off + it0.inFileLine + _ + mx
        omega

end Oelint

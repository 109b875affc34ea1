import Verif.Lemmas.Append
import Verif.Lemmas.LoadSpec
import Verif.Lemmas.Terminates
/-! Lines of included files (C43). -/
set_option linter.unusedSectionVars false
set_option linter.unusedSimpArgs false
namespace Oelint
variable [Uni]
open Spec

/-- the items stay at the front, only lines of `.bbappend` items change -/
def Keeps (s s' : Stash) : Prop := ∃ l', Raised s.items l' ∧ l' <+: s'.items

theorem Keeps.refl (s : Stash) : Keeps s s := ⟨_, .refl _, List.prefix_rfl⟩

theorem raised_prefix {a b c : List Item} (h : Raised a b) (hp : c <+: a) : ∃ d, Raised c d ∧ d <+: b := by
  obtain ⟨r, rfl⟩ := hp
  induction c generalizing b with
  | nil => exact ⟨[], .nil, List.nil_prefix⟩
  | cons x xs ih =>
    rw [List.cons_append] at h
    cases h with
    | @cons _ y _ b' hxy h =>
      obtain ⟨d, h1, h2⟩ := ih h
      exact ⟨y :: d, .cons hxy h1, List.cons_prefix_cons.2 ⟨rfl, h2⟩⟩

theorem Keeps.trans (a b c : Stash) (h1 : Keeps a b) (h2 : Keeps b c) : Keeps a c := by
  obtain ⟨l, h3, h4⟩ := h1
  obtain ⟨m, h5, h6⟩ := h2
  obtain ⟨d, h7, h8⟩ := raised_prefix h5 h4
  exact ⟨d, h3.trans h7, h8.trans h6⟩

theorem addFile_keeps (W : World) (fuel : Nat) (path : Str) (off : Int) (forced : Option Str) :
    M.Rel Keeps (addFile W fuel path off forced) := by
  induction fuel generalizing path off forced with
  | zero => exact fun s => Keeps.refl s
  | succ fuel ih =>
    intro s
    by_cases hs : alreadySeen s (abspath W.cwd path) = true
    · rw [addFile_seen off forced hs]; exact Keeps.refl s
    · have hs : alreadySeen s (abspath W.cwd path) = false := by simpa using hs
      have hget := getItems_rel Keeps.refl Keeps.trans (fun s => Keeps.refl s) W (abspath W.cwd path) (fun p o f => ih p o f) off
        s.newStyle s.negative (markSeen s (abspath W.cwd path))
      have hget : Keeps s _ := hget
      rw [addFile_eq W fuel path off forced s hs]
      split
      · rename_i heq; rw [heq] at hget; exact hget
      · rename_i its s1 heq
        rw [heq] at hget
        have hx := crossLink_lifted W (abspath W.cwd path) its { s1 with map := enterMap s1.map (abspath W.cwd path) forced }
        split
        · rename_i heq3; rw [heq3] at hx; exact Keeps.trans _ _ _ hget ⟨_, hx.items, List.prefix_rfl⟩
        · rename_i res s3 heq3
          rw [heq3] at hx
          have hdi := addDistroMachine_rel (R := fun s s' => s'.items = s.items) (fun _ => rfl) (fun _ _ _ h1 h2 => h2.trans h1)
            (fun _ _ => rfl) W (abspath W.cwd path) s3
          have h3 := Keeps.trans _ _ _ hget ⟨_, hx.items, List.prefix_rfl⟩
          split
          · rename_i heq4
            rw [heq4] at hdi
            exact Keeps.trans _ _ _ h3 ⟨_, .refl _, by rw [hdi]⟩
          · rename_i s4 heq4
            rw [heq4] at hdi
            exact Keeps.trans _ _ _ h3 ⟨_, .refl _, by
              rw [show (commitItems W res s4).items = s4.items ++ res from rfl, hdi]; exact List.prefix_append _ _⟩

variable (W : World) (add : AddFn) (file : Str)

theorem M.ask_ok {α : Type} {f : Stash → Except PyErr α} {a : α} {s s' : Stash} (h : M.ask f s = (.ok a, s')) : s' = s := by
  unfold M.ask at h; exact (Prod.mk.inj h).2.symm

theorem M.lift_ok {α : Type} {f : Except PyErr α} {a : α} {s s' : Stash} (h : M.lift f s = (.ok a, s')) : s' = s := by
  unfold M.lift at h; exact (Prod.mk.inj h).2.symm

/-- a pattern that is given up leaves the state alone -/
theorem handleKind_none (lineno : Int) (p : Params) (k : Kind) (pat : Pattern) (m : Mt) (s s' : Stash)
    (h : handleKind W add file lineno p k pat m s = (.ok none, s')) : s' = s := by
  have hsimple : ∀ (it : Nat → Item) (o : Int) (s s' : Stash),
      (do let uid ← freshUid; pure (some (it uid, o)) : M (Option (Item × Int))) s = (.ok none, s') → False := by
    intro it o s s' h
    obtain ⟨uid, s1, h1, h2⟩ := M.bind_ok.1 h
    cases h1; cases h2
  cases k <;> unfold handleKind at h <;> simp only at h
  case vars => exact (hsimple _ 0 _ _ h).elim
  case func =>
    obtain ⟨known, s1, h1, h⟩ := M.bind_ok.1 h
    exact (hsimple _ 0 _ _ h).elim
  case inherit | inheritGlob =>
    obtain ⟨nm, s1, h1, h⟩ := M.bind_ok.1 h
    obtain ⟨⟨found, off⟩, s2, h2, h⟩ := M.bind_ok.1 h
    obtain ⟨uid, s3, h3, h4⟩ := M.bind_ok.1 h
    cases h3; cases h4
  case addtask =>
    split at h
    · cases h; rfl
    · exact (hsimple _ 0 _ _ h).elim
  case deltask => exact (hsimple _ 0 _ _ h).elim
  case «include» =>
    obtain ⟨nm, s1, h1, h⟩ := M.bind_ok.1 h
    obtain ⟨path', s2, h2, h⟩ := M.bind_ok.1 h
    have e1 := M.ask_ok h1
    have e2 := M.lift_ok h2
    split at h
    · exact (hsimple _ 0 _ _ h).elim
    · obtain ⟨ign, s3, h3, h⟩ := M.bind_ok.1 h
      have e3 := M.ask_ok h3
      split at h
      · cases h; rw [e3, e2, e1]
      · obtain ⟨tmp, s4, h4, h⟩ := M.bind_ok.1 h
        exact (hsimple _ _ _ _ h).elim
  all_goals exact (hsimple _ 0 _ _ h).elim

/-- an include item that reports a file has loaded it -/
theorem handleKind_include (lineno : Int) (p : Params) (k : Kind) (pat : Pattern) (m : Mt) (s s' : Stash)
    (x : Item × Int) (h : handleKind W add file lineno p k pat m s = (.ok (some x), s')) (name path stmt : Str)
    (hp : x.1.payload = .include name path stmt) (hne : path ≠ []) :
    ∃ sB tmp, add path lineno (some file) s = (.ok tmp, sB) ∧ x.2 = maxInFileLine tmp ∧
      s' = { sB with nextUid := sB.nextUid + 1 } := by
  have hsimple : ∀ (it : Nat → Item) (o : Int) (s s' : Stash),
      (do let uid ← freshUid; pure (some (it uid, o)) : M (Option (Item × Int))) s = (.ok (some x), s') →
      (∀ u, (it u).payload ≠ .include name path stmt) → False := by
    intro it o s s' h hl
    obtain ⟨uid, s1, h1, h2⟩ := M.bind_ok.1 h
    cases h1; cases h2
    exact hl _ hp
  cases k <;> unfold handleKind at h <;> simp only at h
  case vars => exact (hsimple _ 0 _ _ h fun u => by unfold mkVariable; exact fun hh => nomatch hh).elim
  case func =>
    obtain ⟨known, s1, h1, h⟩ := M.bind_ok.1 h
    exact (hsimple _ 0 _ _ h fun u => by unfold mkFunction; exact fun hh => nomatch hh).elim
  case inherit | inheritGlob =>
    obtain ⟨nm, s1, h1, h⟩ := M.bind_ok.1 h
    obtain ⟨⟨found, off⟩, s2, h2, h⟩ := M.bind_ok.1 h
    obtain ⟨uid, s3, h3, h4⟩ := M.bind_ok.1 h
    cases h3; cases h4
    cases hp
  case addtask =>
    split at h
    · cases h
    · exact (hsimple _ 0 _ _ h fun u => by unfold mkTaskAdd; exact fun hh => nomatch hh).elim
  case deltask => exact (hsimple _ 0 _ _ h fun u => by unfold mkTaskDel; exact fun hh => nomatch hh).elim
  case «include» =>
    obtain ⟨nm, s1, h1, h⟩ := M.bind_ok.1 h
    obtain ⟨path', s2, h2, h⟩ := M.bind_ok.1 h
    split at h
    · obtain ⟨uid, s3, h3, h4⟩ := M.bind_ok.1 h
      cases h3; cases h4
      cases hp
      exact absurd rfl hne
    · obtain ⟨ign, s3, h3, h⟩ := M.bind_ok.1 h
      split at h
      · cases h
      · obtain ⟨tmp, s4, h4, h⟩ := M.bind_ok.1 h
        obtain ⟨uid, s5, h5, h6⟩ := M.bind_ok.1 h
        cases h5; cases h6
        cases hp
        have e1 := M.ask_ok h1
        have e2 := M.lift_ok h2
        have e3 := M.ask_ok h3
        subst e1; subst e2; subst e3
        exact ⟨s4, tmp, h4, rfl, rfl⟩
  all_goals exact (hsimple _ 0 _ _ h fun u hh => nomatch hh).elim

theorem classify_include (lineno : Int) (p : Params) (cnt : Str) (l : List (Kind × Pattern)) (s s' : Stash) (r : Item × Int)
    (h : classify W add file lineno p cnt l s = (.ok r, s')) (name path stmt : Str)
    (hp : r.1.payload = .include name path stmt) (hne : path ≠ []) :
    ∃ sB tmp, add path lineno (some file) s = (.ok tmp, sB) ∧ r.2 = maxInFileLine tmp ∧
      s' = { sB with nextUid := sB.nextUid + 1 } := by
  induction l generalizing s with
  | nil =>
    rw [classify] at h
    obtain ⟨uid, s1, h1, h2⟩ := M.bind_ok.1 h
    cases h1; cases h2
    cases hp
  | cons kp rest ih =>
    obtain ⟨k, pat⟩ := kp
    rw [classify] at h
    cases hm : reMatch pat.re cnt with
    | none => rw [hm] at h; exact ih _ h
    | some m =>
      rw [hm] at h
      obtain ⟨o, s1, h1, h2⟩ := M.bind_ok.1 h
      cases o with
      | none =>
        have e := handleKind_none W add file _ _ _ _ _ _ _ h1
        subst e
        exact ih _ h2
      | some x =>
        cases h2
        exact handleKind_include W add file _ _ _ _ _ _ _ _ h1 name path stmt hp hne

/-- the run at one of the items -/
theorem itemsLoop_at (hadd : AddPos add) (I : Stash → Prop)
    (hI : ∀ lineno p cnt s it d s1, I s → classify W add file lineno p cnt parseOrder s = (.ok (it, d), s1) →
      it.payload.loads = false → I s1) (lineOffset off : Int) (ns : Bool) (cs : List Chunk) (s s' : Stash) (its pre post : List Item)
    (it : Item) (h : itemsLoop W add file lineOffset off ns cs s = (.ok its, s')) (he : its = pre ++ it :: post)
    (hpre : ∀ x ∈ pre, x.payload.loads = false) (hs : I s) :
    ∃ cs1 c cs2 ns1 sA sB d, cs = cs1 ++ c :: cs2 ∧ I sA ∧
      classify W add file c.line (chunkParams file lineOffset off ns1 c) c.cnt parseOrder sA = (.ok (it, d), sB) ∧
      itemsLoop W add file lineOffset (off + d) (ns1 || it.isNewStyle) cs2 sB = (.ok post, s') := by
  induction cs generalizing ns s its pre with
  | nil => cases h; simp at he
  | cons c cs ih =>
    rw [itemsLoop] at h
    obtain ⟨⟨x, d⟩, s1, h1, h⟩ := M.bind_ok.1 h
    obtain ⟨rest, s2, h2, h⟩ := M.bind_ok.1 h
    cases h
    cases pre with
    | nil =>
      simp only [List.nil_append, List.cons.injEq] at he
      obtain ⟨rfl, rfl⟩ := he
      exact ⟨[], c, cs, ns, s, s1, d, rfl, hs, h1, h2⟩
    | cons y pre =>
      simp only [List.cons_append, List.cons.injEq] at he
      obtain ⟨rfl, he⟩ := he
      obtain ⟨_, _, hd⟩ := classify_post W add file hadd _ _ _ _ _ _ _ h1
      have h0 : d = 0 := hd (hpre x (by simp))
      subst h0
      rw [Int.add_zero] at h2
      have hs1 := hI _ _ _ _ _ _ _ hs h1 (hpre x (by simp))
      obtain ⟨cs1, c', cs2, ns1, sA, sB, d, h3, h0, h4, h5⟩ := ih _ _ _ _ h2 he (fun z hz => hpre z (by simp [hz])) hs1
      exact ⟨c :: cs1, c', cs2, ns1, sA, sB, d, by rw [h3]; rfl, h0, h4, h5⟩

theorem maxInFileLine_ge (l : List Item) : ∀ j ∈ l, j.inFileLine ≤ maxInFileLine l := by
  intro j hj
  unfold maxInFileLine
  cases hl : l.map (·.inFileLine) with
  | nil => rw [List.map_eq_nil_iff] at hl; subst hl; cases hj
  | cons x xs =>
    have : j.inFileLine ∈ l.map (·.inFileLine) := List.mem_map.2 ⟨j, hj, rfl⟩
    rw [hl] at this
    rcases List.mem_cons.1 this with h | h
    · simp only; rw [h]; exact foldl_max_ge x xs
    · exact foldl_max_mem_le x xs _ h

variable {W file}

/-- the items of an included file, in the stash, with their lines -/
structure Included (W : World) (p : Str) (s' : Stash) (it : Item) (post sub : List Item) : Prop where
  inStash : sub.Sublist s'.items
  origin : ∀ x ∈ sub, x.origin = abspath W.cwd p
  text : ∀ t, W.file (abspath W.cwd p) = .text t → (sub.map (·.realRaw)).flatten = univNewlines t
  order : (∀ x ∈ sub, x.payload.loads = false) →
    (∀ x ∈ sub, it.line < x.line ∧ ∀ b ∈ post, x.line < b.line) ∧ sub.Pairwise (fun a b => a.line < b.line)

theorem raised_same {a b : List Item} (h : Raised a b) (hn : ∀ x ∈ a, ¬ c!".bbappend" <:+ x.origin) : b = a := by
  induction h with
  | nil => rfl
  | @cons x y l l' hxy _ ih =>
    rw [ih (fun z hz => hn z (by simp [hz]))]
    congr 1
    rw [hxy.1, hxy.2.2 (hn x (by simp))]

theorem raised_suffix {a b c : List Item} (h : Raised (a ++ c) b) : ∃ a' c', b = a' ++ c' ∧ Raised c c' := by
  induction a generalizing b with
  | nil => exact ⟨[], b, rfl, h⟩
  | cons x xs ih =>
    rw [List.cons_append] at h
    cases h with
    | @cons _ y _ b' hxy h =>
      obtain ⟨a', c', h1, h2⟩ := ih h
      exact ⟨y :: a', c', by rw [h1]; rfl, h2⟩

theorem splitext_suffix (p : Str) : (splitext p).2 <:+ p := by
  have hb : basename p <:+ p := by
    have := List.takeWhile_prefix (fun c => c != '/') (l := p.reverse)
    have := List.reverse_suffix.2 this
    rwa [List.reverse_reverse] at this
  unfold splitext
  simp only
  split
  · exact List.nil_suffix
  · rename_i h
    refine List.IsSuffix.trans ?_ hb
    generalize basename p = b at h ⊢
    have h1 := List.takeWhile_append_dropWhile (p := fun c => c != '.') (l := b.reverse)
    cases hd : b.reverse.dropWhile (fun c => c != '.') with
    | nil => rw [hd] at h; simp at h
    | cons x xs =>
      have hx : x = '.' := by
        have := List.head_dropWhile_not (fun c => c != '.') (l := b.reverse) (by rw [hd]; simp)
        simp only [hd, List.head_cons] at this
        simpa using this
      subst hx
      rw [hd] at h1
      have h2 := congrArg List.reverse h1
      simp only [List.reverse_append, List.reverse_cons, List.reverse_reverse] at h2
      refine ⟨xs.reverse, ?_⟩
      refine Eq.trans ?_ h2
      simp

theorem ext_not_append {p : Str} (h : (splitext p).2 ∈ rereadExts) : ¬ c!".bbappend" <:+ p := by
  intro h1
  have h2 := splitext_suffix p
  generalize (splitext p).2 = e at h h2
  have h3 : e <:+ c!".bbappend" := by
    refine List.suffix_of_suffix_length_le h2 h1 ?_
    exact (show ∀ e ∈ rereadExts, e.length ≤ 9 by decide) e h
  exact (show ∀ e ∈ rereadExts, ¬ e <:+ c!".bbappend" by decide) e h h3

/-- the items of a file that is loaded by the first loading item -/
theorem addFile_loaded {n : Nat} {path : Str} {off : Int} {forced : Option Str} {s s' : Stash} {res : List Item}
    (h : addFile W (n + 1) path off forced s = (.ok res, s')) (hs : alreadySeen s (abspath W.cwd path) = false)
    (hb : ¬ c!".bbappend" <:+ abspath W.cwd path) {pre post : List Item} {it : Item} (he : res = pre ++ it :: post)
    (hpre : ∀ x ∈ pre, x.payload.loads = false) {p : Str} (hincb : ¬ c!".bbappend" <:+ abspath W.cwd p)
    (I : Stash → Prop) (hI : ∀ lineno p cnt s it d s1, I s →
      classify W (addFile W n) (abspath W.cwd path) lineno p cnt parseOrder s = (.ok (it, d), s1) → it.payload.loads = false → I s1)
    (hmark : I (markSeen s (abspath W.cwd path))) (hunseen : ∀ s, I s → alreadySeen s (abspath W.cwd p) = false)
    (hload : ∀ lineno q cnt sA sB d, I sA →
      classify W (addFile W n) (abspath W.cwd path) lineno q cnt parseOrder sA = (.ok (it, d), sB) →
      ∃ sD tmp, addFile W n p lineno (some (abspath W.cwd path)) sA = (.ok tmp, sD) ∧ d = maxInFileLine tmp ∧
        sB = { sD with nextUid := sD.nextUid + 1 }) :
    ∃ sub, Included W p s' it post sub := by
  rcases addFile_ok W h with ⟨hs', _, _⟩ | ⟨_, ⟨ok⟩⟩
  · rw [hs] at hs'; cases hs'
  · have hres : res = ok.its := by
      obtain ⟨mx, h1, h2, h3⟩ := crossLink_post _ _ _ _ _ ok.cross
      rw [h3 (by
        cases hh : endsWith c!".bbappend" (abspath W.cwd path) with
        | false => rfl
        | true => exact absurd (endsWith_iff.1 hh) hb)] at h2
      exact h2.trans (by simp [shiftLines])
    obtain ⟨cs1, c, cs2, ns1, sA, sB, d, h1, hA, h2, h3⟩ := itemsLoop_at W _ _ (addPos_addFile W n) I hI _ _ _ _ _ _ _ pre post it
      ok.loop (hres ▸ he) hpre hmark
    obtain ⟨sD, tmp, h4, h5, h6⟩ := hload _ _ _ _ _ _ hA h2
    have hcp := (classify_post W _ _ (addPos_addFile W n) _ _ _ _ _ _ _ h2).1
    have hline : it.line = c.line := by rw [hcp.line]; simp [chunkParams]
    -- the items of the included file are kept
    have hkeep : Keeps sD ok.s1 := by
      have := itemsLoop_rel Keeps.refl Keeps.trans (fun s => Keeps.refl s) W (abspath W.cwd path)
        (fun p o f => addFile_keeps W n p o f) off (0 + d) (ns1 || it.isNewStyle) cs2 sB
      rw [h3] at this
      rw [h6] at this
      exact this
    have hkeep' : Keeps ok.s1 s' := by
      have hx := crossLink_lifted W (abspath W.cwd path) ok.its { ok.s1 with map := enterMap ok.s1.map (abspath W.cwd path) forced }
      rw [ok.cross] at hx
      have hdi := addDistroMachine_rel (R := fun s s' => s'.items = s.items) (fun _ => rfl) (fun _ _ _ h1 h2 => h2.trans h1)
        (fun _ _ => rfl) W (abspath W.cwd path) ok.s3
      rw [ok.distro] at hdi
      have hfin : s'.items = ok.s4.items ++ res := (congrArg Stash.items ok.final).trans rfl
      refine ⟨_, hx.items, ?_⟩
      rw [hfin, hdi]
      exact List.prefix_append _ _
    obtain ⟨l, hl1, hl2⟩ := Keeps.trans _ _ _ hkeep hkeep'
    have hnew : alreadySeen sA (abspath W.cwd p) = false := hunseen _ hA
    have ho := addFile_origin h4
    have hsub : tmp.Sublist s'.items := by
      cases n with
      | zero => cases h4
      | succ n =>
        rcases addFile_ok W h4 with ⟨_, rfl, _⟩ | ⟨_, ⟨ok'⟩⟩
        · exact List.nil_sublist _
        · have hfin : sD.items = ok'.s4.items ++ tmp := (congrArg Stash.items ok'.final).trans rfl
          rw [hfin] at hl1
          obtain ⟨a', c', rfl, hr⟩ := raised_suffix hl1
          have := raised_same hr (fun x hx => by rw [ho x hx]; exact hincb)
          subst this
          exact (List.sublist_append_right _ _).trans hl2.sublist
    have ⟨hcs, hcs2⟩ : (∀ b ∈ cs2, c.line < b.line) ∧ cs2.Pairwise (fun a b => a.line < b.line) := by
      have hinc : ok.chunks.Pairwise (fun a b => a.line < b.line) := by
        have hp := ok.prep
        unfold prepareLines at hp
        split at hp
        · obtain ⟨gs, hg, hg'⟩ := chunksOf_ok_iff.1 hp
          rw [hg']
          exact chunksFrom_increasing (groups_newline hg (fun l hl => (readlines_isLines _).2.2.2 l hl))
        · injection hp with hp; rw [← hp]; exact .nil
        · cases hp
        · cases hp
      rw [h1, List.pairwise_append] at hinc
      exact List.pairwise_cons.1 hinc.2.1
    have hpost := (traced_lines W _ (addPos_addFile W n) hcs2 (itemsLoop_traced W _ _ _ _ _ _ _ _ _ h3)).2 c.line hcs
    refine ⟨tmp, hsub, ho, fun t ht => ?_, fun hno => ?_⟩
    · obtain ⟨_, ⟨fo⟩⟩ := addFile_file h4 hnew ht
      exact fo.text
    · rcases addFile_cases h4 with rfl | ⟨t, _, ht, m, ⟨fo⟩⟩
      · simp
      · refine ⟨fun x hx => ?_, fo.increasing⟩
        obtain ⟨a, b, hab⟩ := List.append_of_mem hx
        have hle := fo.line_eq hab (fun y hy => hno y (by rw [hab]; simp [hy]))
        have h0 := fo.mx_zero (by
          cases hh : endsWith c!".bbappend" (abspath W.cwd p) with
          | false => rfl
          | true => exact absurd (endsWith_iff.1 hh) hincb)
        have hmx := maxInFileLine_ge tmp x hx
        have hpos := fo.inFileLine hab
        refine ⟨by omega, fun b hb => ?_⟩
        have := hpost b hb
        omega

theorem addFile_included {n : Nat} {path : Str} {off : Int} {forced : Option Str} {s s' : Stash} {res : List Item}
    (h : addFile W n path off forced s = (.ok res, s')) (hc : ClassesOnly s)
    (hb : ¬ c!".bbappend" <:+ abspath W.cwd path) {pre post : List Item} {it : Item} (he : res = pre ++ it :: post)
    (hpre : ∀ x ∈ pre, x.payload.loads = false) {name p stmt : Str} (hp : it.payload = .include name p stmt) (hne : p ≠ [])
    (hinc : (splitext (abspath W.cwd p)).2 ∈ rereadExts) :
    ∃ sub, Included W p s' it post sub := by
  cases n with
  | zero => cases h
  | succ n =>
    rcases addFile_ok W h with ⟨_, rfl, rfl⟩ | ⟨hs, -⟩
    · simp at he
    · refine addFile_loaded h hs hb he hpre (ext_not_append hinc) ClassesOnly (fun lineno p cnt s it d s1 hs h _ => ?_)
        ((classesOnly_step W).mark s _ hc) (fun s hs => not_alreadySeen hs hinc) (fun lineno q cnt sA sB d _ h2 => ?_)
      · have := classify_rel (classesOnly_step W).refl (classesOnly_step W).trans (classesOnly_step W).uid W
          (abspath W.cwd path) (fun p o f => addFile_rel (classesOnly_step W) n p o f) lineno p cnt parseOrder s
        rw [h] at this
        exact this hs
      · exact classify_include W _ _ _ _ _ _ _ _ _ h2 name p stmt hp hne

/-! ## classes -/

/-- once the only class is loaded, the other words change nothing -/
theorem inheritLoop_rest {n : Nat} {file : Str} {lineno : Int} {nm : Str} {locs l : List Str} {off : Int} {s s' : Stash}
    {p : Str} {off' : Int} (h : inheritLoop W (addFile W n) file lineno nm locs l [p] off s = (.ok ([p], off'), s'))
    (hs : alreadySeen s (abspath W.cwd p) = true) : s' = s ∧ off' = off := by
  induction l generalizing off with
  | nil => cases h; exact ⟨rfl, rfl⟩
  | cons w l ih =>
    rw [inheritLoop] at h
    obtain ⟨q, s1, h1, h2⟩ := M.bind_ok.1 h
    clear h
    have e := M.lift_ok h1
    subst e
    split at h2
    · exact ih h2
    · obtain ⟨ign, s2, h3, h4⟩ := M.bind_ok.1 h2
      have e := M.ask_ok h3
      subst e
      split at h4
      · exact ih h4
      · obtain ⟨tmp, s3, h5, h6⟩ := M.bind_ok.1 h4
        by_cases hq : q = p
        · subst hq
          rw [if_pos (by simp)] at h6
          cases n with
          | zero => cases h5
          | succ n =>
            rw [addFile_seen _ _ hs] at h5
            cases h5
            have := ih h6
            simpa [maxInFileLine] using this
        · have hq' : (if List.contains [p] q = true then [p] else [p] ++ [q]) = [p, q] := by
            rw [if_neg (by simpa using hq)]; rfl
          rw [hq'] at h6
          have := (inheritLoop_spec W _ _ _ _ _ _ _ _ _ _ _ h6 (by simpa using fun h => hq h.symm)).2.1 q (by simp)
          simp at this
          exact absurd this hq

theorem addFile_marks' {n : Nat} {path : Str} {off : Int} {forced : Option Str} {s s' : Stash} {res : List Item}
    (h : addFile W (n + 1) path off forced s = (.ok res, s')) (hs : alreadySeen s (abspath W.cwd path) = false) :
    SeenGrow (markSeen s (abspath W.cwd path)) s' := by
  have := addFile_marks (seenGrow_step W) n path off forced hs
  rwa [h] at this

/-- an inherit that reports one class that was not loaded before has loaded it -/
theorem inheritLoop_single {n : Nat} {file : Str} {lineno : Int} {nm : Str} {locs l : List Str} {off : Int} {s s' : Stash}
    {p : Str} {off' : Int} (h : inheritLoop W (addFile W n) file lineno nm locs l [] off s = (.ok ([p], off'), s'))
    (hp : (splitext (abspath W.cwd p)).2 = c!".bbclass") :
    ∃ tmp, addFile W n p lineno (some file) s = (.ok tmp, s') ∧ off' = off + maxInFileLine tmp := by
  induction l with
  | nil => cases h
  | cons w l ih =>
    rw [inheritLoop] at h
    obtain ⟨q, s1, h1, h2⟩ := M.bind_ok.1 h
    clear h
    have e := M.lift_ok h1
    subst e
    split at h2
    · exact ih h2
    · obtain ⟨ign, s2, h3, h4⟩ := M.bind_ok.1 h2
      have e := M.ask_ok h3
      subst e
      split at h4
      · exact ih h4
      · obtain ⟨tmp, s3, h5, h6⟩ := M.bind_ok.1 h4
        have hq' : (if List.contains [] q = true then [] else [] ++ [q]) = [q] := by rw [if_neg (by simp)]; rfl
        rw [hq'] at h6
        have hqp := (inheritLoop_spec W _ _ _ _ _ _ _ _ _ _ _ h6 (by simp)).2.1 q (by simp)
        simp at hqp
        subst hqp
        have hseen : alreadySeen s3 (abspath W.cwd q) = true := by
          cases n with
          | zero => cases h5
          | succ n =>
            rcases addFile_ok W h5 with ⟨h7, _, rfl⟩ | ⟨_, ⟨ok⟩⟩
            · exact h7
            · refine alreadySeen_grow (addFile_marks' h5 ‹_›) (seen_of_mark ?_)
              unfold Reread
              rw [hp]
              decide
        obtain ⟨rfl, rfl⟩ := inheritLoop_rest h6 hseen
        exact ⟨tmp, h5, rfl⟩

/-- an inherit item that reports one class has loaded it -/
theorem handleKind_inherited {n : Nat} {file : Str} (lineno : Int) (p : Params) (k : Kind) (pat : Pattern) (m : Mt) (s s' : Stash)
    (x : Item × Int) (h : handleKind W (addFile W n) file lineno p k pat m s = (.ok (some x), s')) (stmt cls path : Str)
    (hp : x.1.payload = .inherit stmt cls [path]) (hext : (splitext (abspath W.cwd path)).2 = c!".bbclass") :
    ∃ sB tmp, addFile W n path lineno (some file) s = (.ok tmp, sB) ∧ x.2 = maxInFileLine tmp ∧
      s' = { sB with nextUid := sB.nextUid + 1 } := by
  have hsimple : ∀ (it : Nat → Item) (o : Int) (s s' : Stash),
      (do let uid ← freshUid; pure (some (it uid, o)) : M (Option (Item × Int))) s = (.ok (some x), s') →
      (∀ u, (it u).payload ≠ .inherit stmt cls [path]) → False := by
    intro it o s s' h hl
    obtain ⟨uid, s1, h1, h2⟩ := M.bind_ok.1 h
    cases h1; cases h2
    exact hl _ hp
  cases k <;> unfold handleKind at h <;> simp only at h
  case vars => exact (hsimple _ 0 _ _ h fun u => by unfold mkVariable; exact fun hh => nomatch hh).elim
  case func =>
    obtain ⟨known, s1, h1, h⟩ := M.bind_ok.1 h
    exact (hsimple _ 0 _ _ h fun u => by unfold mkFunction; exact fun hh => nomatch hh).elim
  case inherit | inheritGlob =>
    obtain ⟨nm, s1, h1, h⟩ := M.bind_ok.1 h
    obtain ⟨⟨found, off⟩, s2, h2, h⟩ := M.bind_ok.1 h
    obtain ⟨uid, s3, h3, h4⟩ := M.bind_ok.1 h
    have e := M.ask_ok h1
    subst e
    cases h3; cases h4
    have hf : found = [path] := by
      simp only [mkItem] at hp
      injection hp
    subst hf
    obtain ⟨tmp, h5, h6⟩ := inheritLoop_single h2 hext
    exact ⟨s2, tmp, h5, by simpa using h6, rfl⟩
  case addtask =>
    split at h
    · cases h
    · exact (hsimple _ 0 _ _ h fun u => by unfold mkTaskAdd; exact fun hh => nomatch hh).elim
  case deltask => exact (hsimple _ 0 _ _ h fun u => by unfold mkTaskDel; exact fun hh => nomatch hh).elim
  case «include» =>
    obtain ⟨nm, s1, h1, h⟩ := M.bind_ok.1 h
    obtain ⟨path', s2, h2, h⟩ := M.bind_ok.1 h
    split at h
    · obtain ⟨uid, s3, h3, h4⟩ := M.bind_ok.1 h
      cases h3; cases h4
      cases hp
    · obtain ⟨ign, s3, h3, h⟩ := M.bind_ok.1 h
      split at h
      · cases h
      · obtain ⟨tmp, s4, h4, h⟩ := M.bind_ok.1 h
        obtain ⟨uid, s5, h5, h6⟩ := M.bind_ok.1 h
        cases h5; cases h6
        cases hp
  all_goals exact (hsimple _ 0 _ _ h fun u hh => nomatch hh).elim

theorem classify_inherited {n : Nat} {file : Str} (lineno : Int) (p : Params) (cnt : Str) (l : List (Kind × Pattern)) (s s' : Stash)
    (r : Item × Int) (h : classify W (addFile W n) file lineno p cnt l s = (.ok r, s')) (stmt cls path : Str)
    (hp : r.1.payload = .inherit stmt cls [path]) (hext : (splitext (abspath W.cwd path)).2 = c!".bbclass") :
    ∃ sB tmp, addFile W n path lineno (some file) s = (.ok tmp, sB) ∧ r.2 = maxInFileLine tmp ∧
      s' = { sB with nextUid := sB.nextUid + 1 } := by
  induction l generalizing s with
  | nil =>
    rw [classify] at h
    obtain ⟨uid, s1, h1, h2⟩ := M.bind_ok.1 h
    cases h1; cases h2
    cases hp
  | cons kp rest ih =>
    obtain ⟨k, pat⟩ := kp
    rw [classify] at h
    cases hm : reMatch pat.re cnt with
    | none => rw [hm] at h; exact ih _ h
    | some m =>
      rw [hm] at h
      obtain ⟨o, s1, h1, h2⟩ := M.bind_ok.1 h
      cases o with
      | none =>
        have e := handleKind_none W _ file _ _ _ _ _ _ _ h1
        subst e
        exact ih _ h2
      | some x =>
        cases h2
        exact handleKind_inherited _ _ _ _ _ _ _ _ h1 stmt cls path hp hext

/-- the items of the first class that is inherited -/
theorem addFile_inherited {n : Nat} {path : Str} {off : Int} {forced : Option Str} {s s' : Stash} {res : List Item}
    (h : addFile W n path off forced s = (.ok res, s'))
    (hb : ¬ c!".bbappend" <:+ abspath W.cwd path) {pre post : List Item} {it : Item} (he : res = pre ++ it :: post)
    (hpre : ∀ x ∈ pre, x.payload.loads = false) {stmt cls p : Str} (hp : it.payload = .inherit stmt cls [p])
    (hext : (splitext (abspath W.cwd p)).2 = c!".bbclass") (hnew : abspath W.cwd p ∉ s.seenClasses)
    (hself : abspath W.cwd p ≠ abspath W.cwd path) :
    ∃ sub, Included W p s' it post sub := by
  cases n with
  | zero => cases h
  | succ n =>
    rcases addFile_ok W h with ⟨_, rfl, rfl⟩ | ⟨hs, -⟩
    · simp at he
    · refine addFile_loaded h hs hb he hpre ?_ (fun s => abspath W.cwd p ∉ s.seenClasses) (fun lineno q cnt sA x d s1 hs h hl => ?_)
        ?_ (fun s hs => ?_) (fun lineno q cnt sA sB d _ h2 => ?_)
      · intro hh
        have h2 := splitext_suffix (abspath W.cwd p)
        rw [hext] at h2
        exact absurd (List.suffix_of_suffix_length_le h2 hh (by decide)) (by decide)
      · obtain ⟨ps, h1, h2⟩ := classify_loads W _ _ _ _ _ _ _ _ _ h
        have hps : ps = [] := by
          cases ps with
          | nil => rfl
          | cons a l =>
            have := (h2 a).1 (by simp)
            revert this hl
            cases x.payload <;> simp [Payload.loaded, Payload.loads]
        subst hps
        have : ∀ {a b : Stash}, Loads (addFile W n) (abspath W.cwd path) a [] b → b.seenClasses = a.seenClasses := by
          intro a b hab
          generalize hl : ([] : List Str) = l at hab
          induction hab with
          | done => rfl
          | uid _ ih => exact ih hl
          | load => cases hl
        rw [this h1]; exact hs
      · unfold markSeen
        simp only
        split
        · simp [hnew, hself]
        · exact hnew
      · unfold alreadySeen
        rw [hext]
        simp [hs]
      · exact classify_inherited _ _ _ _ _ _ _ h2 stmt cls p hp hext

end Oelint

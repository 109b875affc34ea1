import Verif.Spec.MeaningInclude
import Verif.Props.MeaningAppend
import Verif.Props.State
import Verif.Lemmas.Kinds
/-! C119: the values of a recipe that includes a file follow from the two texts. -/
set_option linter.unusedSectionVars false
namespace Oelint
section
variable [Uni]
open Spec

/-- a file with one line that loads another file -/
theorem addFile_one_load {W : World} {n : Nat} {path : Str} {off : Int} {forced : Option Str} {s s' : Stash} {res : List Item}
    (h : addFile W n path off forced s = (.ok res, s')) (hs : alreadySeen s (abspath W.cwd path) = false) (hi : s.items = [])
    (hc : s.seenClasses = []) (hncls : (splitext (abspath W.cwd path)).2 ≠ c!".bbclass")
    (hb : ¬ c!".bbappend" <:+ abspath W.cwd path) {pre post : List Item} {it : Item} (he : res = pre ++ it :: post)
    (hpre : ∀ x ∈ pre, x.payload.loads = false) (hpost : ∀ x ∈ post, x.payload.loads = false) {q : Str} {P : Item → Prop}
    (hit : ∀ sA lineno p d sB, sA.consts = s.consts → classify W (addFile W (n - 1)) (abspath W.cwd path) lineno p (joined it.raw) parseOrder sA = (.ok (it, d), sB) →
      P it ∧ ∃ sD tmp, addFile W (n - 1) q lineno (some (abspath W.cwd path)) sA = (.ok tmp, sD) ∧ d = maxInFileLine tmp ∧ sB = { sD with nextUid := sD.nextUid + 1 })
    (hinc : (splitext (abspath W.cwd q)).2 ∈ [c!".inc", c!".conf", c!".bbclass"]) :
    ∃ k m sub sA sD, addFile W k q m (some (abspath W.cwd path)) sA = (.ok sub, sD) ∧ alreadySeen sA (abspath W.cwd q) = false ∧ P it ∧ abspath W.cwd q ∈ links s' (abspath W.cwd path) ∧
      ((∀ x ∈ sub, x.payload.loads = false) → s'.items = sub ++ res ∧ ∀ x ∈ sub, it.line < x.line ∧ ∀ b ∈ post, x.line < b.line) := by
  cases n with
  | zero => cases h
  | succ n =>
  rcases addFile_ok W h with ⟨hs', _, _⟩ | ⟨_, ⟨ok⟩⟩
  · rw [hs] at hs'; cases hs'
  have hbf : endsWith c!".bbappend" (abspath W.cwd path) = false := by
    cases hh : endsWith c!".bbappend" (abspath W.cwd path) with
    | false => rfl
    | true => exact absurd (endsWith_iff.1 hh) hb
  have hres : res = ok.its := by
    obtain ⟨mx, h1, h2, h3⟩ := crossLink_post _ _ _ _ _ ok.cross
    rw [h3 hbf] at h2
    exact h2.trans (by simp [shiftLines])
  obtain ⟨cs1, c, cs2, ns1, sA, sB, d, h1, hA, h2, h3⟩ := itemsLoop_at W _ _ (addPos_addFile W n) (fun t => Idle (markSeen s (abspath W.cwd path)) t)
    (fun _ _ _ _ _ _ _ hI hcl hl => hI.trans (classify_idle _ _ _ _ _ _ _ _ _ _ hcl (loads_of_idle hl))) _ _ _ _ _ _ _ pre post it
    ok.loop (hres ▸ he) hpre (Idle.refl _)
  have hcp := (classify_post W _ _ (addPos_addFile W n) _ _ _ _ _ _ _ h2).1
  have hraw : it.raw = c.raw := hcp.raw
  have hcnt : c.cnt = joined it.raw := by
    rw [joined_eq, hraw]
    exact prepareLines_cntOf W _ ok.prep c (by rw [h1]; simp)
  rw [hcnt] at h2
  obtain ⟨hp, sD, tmp, h4, h5, h6⟩ := hit _ _ _ _ _ (by obtain ⟨k, rfl⟩ := hA; rfl) h2
  have hline : it.line = c.line := by rw [hcp.line]; simp [chunkParams]
  have hAi : sA.items = [] := by obtain ⟨k, rfl⟩ := hA; exact hi
  have hAc : sA.seenClasses = [] := by
    obtain ⟨k, rfl⟩ := hA
    show (if (splitext (abspath W.cwd path)).2 == c!".bbclass" then s.seenClasses ++ [abspath W.cwd path] else s.seenClasses) = []
    rw [if_neg (by simpa using hncls), hc]
  have hnew : alreadySeen sA (abspath W.cwd q) = false := by
    unfold alreadySeen
    rw [hAc]
    have : [c!".inc", c!".bb", c!".conf", c!".bbclass"].contains (splitext (abspath W.cwd q)).2 = true := by
      rw [List.contains_iff_mem]
      simp only [List.mem_cons, List.not_mem_nil, or_false] at hinc ⊢
      rcases hinc with h | h | h <;> rw [h] <;> decide
    rw [this]; simp
  have hqb : ¬ c!".bbappend" <:+ abspath W.cwd q := by
    intro h1
    have h2 := splitext_suffix (abspath W.cwd q)
    simp only [List.mem_cons, List.not_mem_nil, or_false] at hinc
    rcases hinc with h | h | h <;> rw [h] at h2 <;> · have h3 := List.suffix_of_suffix_length_le h2 h1 (by decide)
                                                      revert h3; decide
  have hlink : abspath W.cwd q ∈ links s' (abspath W.cwd path) := by
    have hg := linksGrow_step W
    have l1 := addFile_forced h4 (abspath_ne_nil W path) hnew
    have l2 : LinksGrow sB ok.s1 := by
      obtain ⟨k, e⟩ := itemsLoop_idle _ _ _ _ _ _ _ _ _ _ h3 (fun x hx => loads_of_idle (hpost x hx))
      rw [e]
      exact hg.refl sB
    have l3 := enterMap_rel hg.refl hg.trans hg.link hg.enter (abspath W.cwd path) forced ok.s1
    have l4 := crossLink_rel hg.refl hg.trans hg.reline hg.link (abspath W.cwd path) ok.its { ok.s1 with map := enterMap ok.s1.map (abspath W.cwd path) forced }
    rw [ok.cross] at l4
    have l5 := addDistroMachine_rel hg.refl hg.trans hg.consts W (abspath W.cwd path) ok.s3
    rw [ok.distro] at l5
    rw [ok.final]
    refine (hg.trans _ _ _ l2 (hg.trans _ _ _ l3 (hg.trans _ _ _ l4 l5))).2 _ _ ?_
    rw [h6]
    exact l1
  refine ⟨n, _, tmp, sA, sD, h4, hnew, hp, hlink, fun hno => ?_⟩
  have ho := addFile_origin h4
  -- the items
  have hD : sD.items = tmp := by
    obtain ⟨⟨f, mx, e⟩, -, -⟩ := addFile_own hnew h4 (fun x hx => loads_of_idle (hno x hx))
    rw [e, hAi]; rfl
  have hs1 : ok.s1.items = tmp := by
    obtain ⟨k, e⟩ := itemsLoop_idle _ _ _ _ _ _ _ _ _ _ h3 (fun x hx => loads_of_idle (hpost x hx))
    rw [e, h6]; exact hD
  have hfin : s'.items = tmp ++ res := by
    have hd := addDistroMachine_rel (R := fun s s' => s'.items = s.items) (fun _ => rfl) (fun _ _ _ h1 h2 => h2.trans h1)
      (fun _ _ => rfl) W (abspath W.cwd path) ok.s3
    rw [ok.distro] at hd
    have hx := crossLink_lifted W (abspath W.cwd path) ok.its { ok.s1 with map := enterMap ok.s1.map (abspath W.cwd path) forced }
    rw [ok.cross] at hx
    have hr := raised_same hx.items (fun x hx => by
      rw [show ({ ok.s1 with map := enterMap ok.s1.map (abspath W.cwd path) forced } : Stash).items = tmp from hs1] at hx
      rw [ho x hx]; exact hqb)
    rw [congrArg Stash.items ok.final]
    show ok.s4.items ++ res = _
    rw [hd, hr]
    exact congrArg (· ++ res) hs1
  refine ⟨hfin, ?_⟩
  have ⟨hcs, hcs2⟩ : (∀ b ∈ cs2, c.line < b.line) ∧ cs2.Pairwise (fun a b => a.line < b.line) := by
    have hinc : ok.chunks.Pairwise (fun a b => a.line < b.line) := by
      have hp := ok.prep
      unfold prepareLines at hp
      split at hp
      · obtain ⟨gs, hg, hg'⟩ := chunksOf_ok_iff.1 hp
        rw [hg']
        exact chunksFrom_increasing (groups_newline hg (fun l hl => (readlines_isLines _).2.2.2 l hl))
      · injection hp with hp; rw [← hp]; exact .nil
      · cases hp
      · cases hp
    rw [h1, List.pairwise_append] at hinc
    exact List.pairwise_cons.1 hinc.2.1
  have hpost := (traced_lines W _ (addPos_addFile W n) hcs2 (itemsLoop_traced W _ _ _ _ _ _ _ _ _ h3)).2 c.line hcs
  intro x hx
  rcases addFile_cases h4 with rfl | ⟨t, _, ht, m, ⟨fo⟩⟩
  · cases hx
  obtain ⟨a, b, hab⟩ := List.append_of_mem hx
  have hle := fo.line_eq hab (fun y hy => hno y (by rw [hab]; simp [hy]))
  have h0 := fo.mx_zero (by
    cases hh : endsWith c!".bbappend" (abspath W.cwd q) with
    | false => rfl
    | true => exact absurd (endsWith_iff.1 hh) hqb)
  have hmx := maxInFileLine_ge tmp x hx
  have hpos := fo.inFileLine hab
  refine ⟨by omega, fun b hb => ?_⟩
  have := hpost b hb
  omega

theorem forall₂_join {α β : Type} {R : α → β → Prop} {a c : List α} {b d : List β} (h : List.Forall₂ R a b) (h' : List.Forall₂ R c d) : List.Forall₂ R (a ++ c) (b ++ d) := by
  induction h with
  | nil => exact h'
  | cons h1 _ ih => exact .cons h1 ih

/-- if a text without references is expanded, it stays -/
theorem expandTerm_plain' {W : World} {st : Stash} {file name nm : Str} (n3 : '$' ∉ name) (n4 : '(' ∉ name) (h1 : expandTerm W st file name = .ok nm) : nm = name := by
  cases hbs : setsBase st.consts with
  | ok b' =>
    rw [expandTerm_plain hbs n3 n4] at h1
    cases h1; rfl
  | error e =>
    exfalso
    unfold expandTerm expandTermS expandBound at h1
    rw [expandTermF, hbs] at h1
    cases h1

/-- a recipe with one line that loads a file of entries -/
theorem loading_read {W : World} {ns neg : Bool} {consts : J} (hu : UsableConstants consts) {uid k : Nat} {p q line : Str} {off : Int} {forced : Option Str} {u : Stash} {res : List Item}
    (h : addFile W k p off forced (Stash.init ns neg consts uid) = (.ok res, u)) {es es' es2 : List Entry} (hf : LoadingFile W p es line es2) (hf' : EntryFile W q es')
    (hb : c!".bb" <:+ abspath W.cwd p) (hext : (splitext (abspath W.cwd q)).2 ∈ [c!".inc", c!".conf", c!".bbclass"]) {P : Item → Prop}
    (hit : ∀ it ∈ res, ∀ sA lineno pp d sB, sA.consts = consts → classify W (addFile W (k - 1)) (abspath W.cwd p) lineno pp line parseOrder sA = (.ok (it, d), sB) →
      (it.payload.classifier ∉ [c!"Variable", c!"Unset"] ∧ P it) ∧ ∃ sD tmp, addFile W (k - 1) q lineno (some (abspath W.cwd p)) sA = (.ok tmp, sD) ∧ d = maxInFileLine tmp ∧
        sB = { sD with nextUid := sD.nextUid + 1 }) :
    ∃ its it, RecipeRead consts (abspath W.cwd p) u its (es ++ .other (.blank []) :: (es' ++ es2)) ∧ it ∈ its ∧ P it ∧ (∀ x ∈ its, x = it ∨ x.payload.loads = false) ∧
      (es2 ≠ [] → ∃ z ∈ its, z.origin = abspath W.cwd p ∧ ∀ x ∈ its, x.line ≤ z.line) := by
  obtain ⟨t, ls, gs, g, gs2, f1, f2, f3, f4, ⟨f5, f6⟩, f9⟩ := hf
  have hnew : alreadySeen (Stash.init ns neg consts uid) (abspath W.cwd p) = false := by simp [alreadySeen, Stash.init]
  have hreal := (C08_chunk_boundaries W k p off forced _ _ res t h hnew f1 ls _ f2).2 f3
  obtain ⟨value, hraw⟩ := C06_raw_from_realraw W k p off forced _ _ res t h hnew f1
  rw [List.map_append, List.map_cons] at hreal
  obtain ⟨pre, r2, he, e1, e2⟩ := List.map_eq_append_iff.1 hreal
  obtain ⟨it, post, rfl, e3, e4⟩ := List.map_eq_cons_iff.1 e2
  have hE1 := entries_of h hnew f1 gs es pre (by rw [he]; simp) e1 f4
  have hE2 := entries_of h hnew f1 gs2 es2 post (by rw [he]; intro x hx; simp [hx]) e4 f9
  have hitm : it ∈ res := by rw [he]; simp
  have hj : joined it.raw = line := by
    obtain ⟨hrr, -⟩ := (hraw it hitm).2 (by rw [e3]; exact f5)
    rw [hrr, e3, f6]
  have hnb : ¬ c!".bbappend" <:+ abspath W.cwd p := by
    intro hh
    have := List.suffix_of_suffix_length_le hb hh (by decide)
    revert this; decide
  have hls : ∀ {r : List Item} {es : List Entry}, List.Forall₂ (fun it e => EntryItem it e ∧ it.payload.loads = false) r es → ∀ x ∈ r, x.payload.loads = false := by
    intro r es hE x hx
    obtain ⟨e, -, he⟩ := forall₂_left hE hx
    exact he.2
  obtain ⟨k', m, sub, sA, sD, a1, a2, a3, a5, a4⟩ := addFile_one_load (q := q) (P := fun it => it.payload.classifier ∉ [c!"Variable", c!"Unset"] ∧ P it) h hnew rfl rfl (by
      intro hh
      have h1 := splitext_suffix (abspath W.cwd p)
      rw [hh] at h1
      have := List.suffix_of_suffix_length_le hb h1 (by decide)
      revert this; decide) hnb he (hls hE1) (hls hE2) (by
      intro sA lineno pp d sB hc hcl
      rw [hj] at hcl
      exact hit it hitm _ _ _ _ _ hc hcl) hext
  obtain ⟨t', ls', gs', f1', f2', f3', f4'⟩ := hf'.text
  have hreal' := (C08_chunk_boundaries W k' q m _ _ _ sub t' a1 a2 f1' ls' gs' f2').2 f3'
  have hE := entries_of a1 a2 f1' gs' es' sub (fun _ hx => hx) hreal' f4'
  obtain ⟨i1, i2⟩ := a4 (hls hE)
  have hinc : res.Pairwise (fun a b => a.line < b.line) := (C02_lines W k p off forced _ _ res _ h hnew f1).2.1
  have hsub := (C02_lines W k' q m _ _ _ sub _ a1 a2 f1').2.1
  have c0 : ConstsOf consts (Stash.init ns neg consts uid) := ⟨hu, otherNames_refl _⟩
  have c1 : ConstsOf consts u := by
    have := addFile_constsOf_any (W := W) c0 k p off forced
    rwa [h] at this
  have ho := ((C03_one_item_per_chunk W k p off forced _ _ res h).2 t hnew f1).2
  have ho' := ((C03_one_item_per_chunk W k' q m _ _ _ sub a1).2 t' a2 f1').2
  refine ⟨pre ++ it :: (sub ++ post), it, ⟨?_, ?_, ?_, ?_, ?_⟩, by simp, a3.2, fun x hx => ?_, fun hne => ?_⟩
  rotate_left 5
  · simp only [List.mem_append, List.mem_cons] at hx
    rcases hx with hx | hx | hx | hx
    exacts [.inr (hls hE1 x hx), .inl hx, .inr (hls hE x hx), .inr (hls hE2 x hx)]
  · have hpost : post ≠ [] := by
      rintro rfl
      cases hE2
      exact hne rfl
    have hinc' := hinc
    rw [he, List.pairwise_append, List.pairwise_cons] at hinc'
    obtain ⟨-, ⟨g2, g3⟩, g4⟩ := hinc'
    have hz := List.getLast_mem hpost
    have hm : ∀ {z}, z ∈ post → z ∈ pre ++ it :: (sub ++ post) := fun h => List.mem_append_right _ (List.mem_cons_of_mem _ (List.mem_append_right _ h))
    have hm' : ∀ {z}, z ∈ post → z ∈ pre ++ it :: post := fun h => List.mem_append_right _ (List.mem_cons_of_mem _ h)
    refine ⟨post.getLast hpost, hm hz, ho _ (by rw [he]; exact hm' hz), fun x hx => ?_⟩
    simp only [List.mem_append, List.mem_cons] at hx
    rcases hx with hx | rfl | hx | hx
    · exact Int.le_of_lt (g4 x hx _ (List.mem_cons_of_mem _ hz))
    · exact Int.le_of_lt (g2 _ hz)
    · exact Int.le_of_lt ((i2 x hx).2 _ hz)
    · rw [← List.dropLast_append_getLast hpost, List.pairwise_append] at g3
      rw [← List.dropLast_append_getLast hpost] at hx
      rcases List.mem_append.1 hx with hx | hx
      · exact Int.le_of_lt (g3.2.2 x hx _ (List.mem_singleton.2 rfl))
      · rw [List.mem_singleton.1 hx]; exact Int.le_refl _
  · intro x
    rw [i1, he]
    simp only [List.mem_append, List.mem_cons]
    constructor
    · rintro (h | h | h | h)
      exacts [.inr (.inr (.inl h)), .inl h, .inr (.inl h), .inr (.inr (.inr h))]
    · rintro (h | h | h | h)
      exacts [.inr (.inl h), .inr (.inr (.inl h)), .inl h, .inr (.inr (.inr h))]
  · have q1 : List.Forall₂ EntryItem pre es := hE1.imp fun _ _ h => h.1
    have q2 : List.Forall₂ EntryItem sub es' := hE.imp fun _ _ h => h.1
    have q3 : List.Forall₂ EntryItem post es2 := hE2.imp fun _ _ h => h.1
    have q4 : EntryItem it (.other (.blank [])) := .other a3.1
    exact forall₂_join q1 (.cons q4 (forall₂_join q2 q3))
  · obtain ⟨fs, k1, k2⟩ := mem_links.1 a5
    intro x hx
    simp only [List.mem_append, List.mem_cons] at hx
    rcases hx with hx | rfl | hx | hx
    · exact .inl (ho x (by rw [he]; simp [hx]))
    · exact .inl (ho _ hitm)
    · exact .inr ⟨rfl, fs, k1, by rw [ho' x hx]; exact k2⟩
    · exact .inl (ho x (by rw [he]; simp [hx]))
  · rw [he, List.pairwise_append, List.pairwise_cons] at hinc
    obtain ⟨g1, ⟨g2, g3⟩, g4⟩ := hinc
    rw [List.pairwise_append, List.pairwise_cons, List.pairwise_append]
    refine ⟨g1, ⟨fun b hb' => ?_, hsub, g3, fun a ha b hb' => (i2 a ha).2 b hb'⟩, fun a ha b hb' => ?_⟩
    · rcases List.mem_append.1 hb' with hb' | hb'
      · exact (i2 b hb').1
      · exact g2 b hb'
    · rcases List.mem_cons.1 hb' with rfl | hb'
      · exact g4 a ha b (by simp)
      · rcases List.mem_append.1 hb' with hb' | hb'
        · have := g4 a ha it (by simp)
          have := (i2 b hb').1
          omega
        · exact g4 a ha b (by simp [hb'])
  · exact (twin_names W).sets (s' := { (Stash.init ns neg consts uid) with consts := u.consts }) (constsOf_names c0 c1)

theorem include_read' {W : World} {ns neg : Bool} {consts : J} (hu : UsableConstants consts) {uid k : Nat} {p q name : Str} {off : Int} {forced : Option Str} {u : Stash} {res : List Item}
    (h : addFile W k p off forced (Stash.init ns neg consts uid) = (.ok res, u)) {es es' es2 : List Entry} (hf : IncludingFile W p es name es2) (hf' : EntryFile W q es')
    (hb : c!".bb" <:+ abspath W.cwd p) (hq : findLocalOrLayer W name (dirname (abspath W.cwd p)) = .ok q) (hne : q ≠ []) (hext : (splitext (abspath W.cwd q)).2 ∈ [c!".inc", c!".conf"])
    {b : J} (hbase : setsBase consts = .ok b) (hign : ∀ ign, includeIgnore consts = .ok ign → ign.has name = false) :
    ∃ its it, RecipeRead consts (abspath W.cwd p) u its (es ++ .other (.blank []) :: (es' ++ es2)) ∧ it ∈ its ∧ (∃ stmt, it.payload = .include name q stmt) ∧
      (∀ x ∈ its, x = it ∨ x.payload.loads = false) ∧ (es2 ≠ [] → ∃ z ∈ its, z.origin = abspath W.cwd p ∧ ∀ x ∈ its, x.line ≤ z.line) := by
  obtain ⟨t, ls, gs, g, gs2, stmt, ws, f1, f2, f3, f4, ⟨f5, f6, f7, f8⟩, f9⟩ := hf.text
  obtain ⟨n1, n2, n3, n4⟩ := hf.name
  refine loading_read (line := stmt ++ (ws ++ name)) hu h ⟨t, ls, gs, g, gs2, f1, f2, f3, f4, ⟨f5, f6⟩, f9⟩ hf' hb (List.mem_append_left [c!".bbclass"] hext) ?_
  intro it hitm sA lineno pp d sB hc hcl
  have hp : it.payload = .include name q stmt := by
    have hbA : setsBase sA.consts = .ok b := by rw [hc]; exact hbase
    rw [← List.append_nil name] at hcl
    rcases classify_includes f7 f8 n1 n2 (by simp) hcl with ⟨path, hp⟩ | ⟨nm, ign, h1, h2, h3⟩
    · have hL := addFile_loadSpec h it hitm
      rw [hp] at hL
      obtain ⟨st, nm, h1, h2, -⟩ := hL
      have hnm : nm = name := expandTerm_plain' n3 n4 h1
      rw [hnm, hq] at h2
      cases h2
      exact hp
    · rw [expandTerm_plain hbA n3 n4] at h1
      cases h1
      rw [hc] at h2
      rw [hign ign h2] at h3
      cases h3
  obtain ⟨sD, tmp, h4, h5, h6⟩ := classify_include W _ _ _ _ _ _ _ _ _ hcl name q stmt hp hne
  exact ⟨⟨by rw [hp]; simp [Payload.classifier], stmt, hp⟩, sD, tmp, h4, h5, h6⟩

theorem include_read {W : World} {ns neg : Bool} {consts : J} (hu : UsableConstants consts) {uid k : Nat} {p q name : Str} {off : Int} {forced : Option Str} {u : Stash} {res : List Item}
    (h : addFile W k p off forced (Stash.init ns neg consts uid) = (.ok res, u)) {es es' es2 : List Entry} (hf : IncludingFile W p es name es2) (hf' : EntryFile W q es')
    (hb : c!".bb" <:+ abspath W.cwd p) (hq : findLocalOrLayer W name (dirname (abspath W.cwd p)) = .ok q) (hne : q ≠ []) (hext : (splitext (abspath W.cwd q)).2 ∈ [c!".inc", c!".conf"])
    {b : J} (hbase : setsBase consts = .ok b) (hign : ∀ ign, includeIgnore consts = .ok ign → ign.has name = false) :
    ∃ its, RecipeRead consts (abspath W.cwd p) u its (es ++ .other (.blank []) :: (es' ++ es2)) := by
  obtain ⟨its, it, R, -⟩ := include_read' hu h hf hf' hb hq hne hext hbase hign
  exact ⟨its, R⟩

theorem decls_including (es es' es2 : List Entry) : decls (es ++ .other (.blank []) :: (es' ++ es2)) = decls es ++ (decls es' ++ decls es2) := by
  rw [decls_append, ← decls_append es' es2]; rfl

/-- two stashes read from the same declarations expand alike -/
theorem RecipeRead.same {D : World} {consts : J} {file : Str} {u u' : Stash} {its its' : List Item} {es es' : List Entry} (R : RecipeRead consts file u its es) (R' : RecipeRead consts file u' its' es')
    (he : decls es = decls es') {b : KV} (hb : setsBase consts = .ok (.dict b)) (hd : ∀ k j, b.get k = some j → ∃ t, j = .str t) {rank : Str → Nat} (hr : Ranked b (decls es) rank)
    (hempty : stands b (decls es) [] = none) (hff : ∀ n t, FromFileName file n t → '$' ∉ t) {value : Str} {names : List Str} (hw : Written value names) (hc : NoCalls value) :
    expandTerm D u file value = expandTerm D u' file value := by
  have hA : Acyclic D u file rank := by
    intro n t hn
    by_cases hne : n = []
    · subst hne
      exact absurd hempty (R.defined_some hb hd hn)
    · exact hr n t ((R.defined hb hd hne).2 hn)
  obtain ⟨o, h1, h2, -⟩ := C51_acyclic_definitions D u _ [] value names b (R.base.trans hb) hd rank hA hff hw hc
  have h4 := R.expands hb hd h1
  rw [he] at h4
  have h3 := C51_expansion_substitutes D u' _ [] value o _ (R'.base.trans hb) hc (R'.filled hb hd h4)
  exact Eq.trans h2 h3.symm

/-- two stashes read from the same declarations give the same values -/
theorem RecipeRead.same_values {D : World} {ns neg : Bool} {uid : Nat} {consts : J} {file : Str} {u u' : Stash} {its its' : List Item} {es es' : List Entry} (R : RecipeRead consts file u its es) (R' : RecipeRead consts file u' its' es')
    {ds : List Decl} (e : decls es = ds) (e' : decls es' = ds) {b : KV} (hb : setsBase consts = .ok (.dict b)) (hd : ∀ k j, b.get k = some j → ∃ t, j = .str t) {rank : Str → Nat} (hr : Ranked b ds rank)
    (hempty : stands b ds [] = none) (hff : ∀ n t, FromFileName file n t → '$' ∉ t) :
    (∀ value names, Written value names → NoCalls value → expandTerm D u file value = expandTerm D u' file value) ∧
    ∀ r r', expandVar D u (some file) .none .none false = .ok r → expandVar D u' (some file) .none .none false = .ok r' →
      b.keys.Nodup → (∀ x ∈ b.keys, '$' ∉ x ∧ '(' ∉ x) → (∀ d ∈ ds, '$' ∉ d.name ∧ '(' ∉ d.name) →
      ∀ n start, Base (Stash.init ns neg consts uid) file n start → byOperators n start ds ≠ none ∨ texts n c!"remove" ds = [] →
      (∃ names, Written (without ((texts n c!"prepend" ds).reverse.flatten ++ (byOperators n start ds).getD [] ++ (texts n c!"append" ds).flatten) (texts n c!"remove" ds)) names) →
      NoCalls (without ((texts n c!"prepend" ds).reverse.flatten ++ (byOperators n start ds).getD [] ++ (texts n c!"append" ds).flatten) (texts n c!"remove" ds)) → dget n r = dget n r' := by
  have same : ∀ value names, Written value names → NoCalls value → expandTerm D u file value = expandTerm D u' file value :=
    fun value names hw hc => R.same R' (e.trans e'.symm) hb hd (by rw [e]; exact hr) (by rw [e]; exact hempty) hff hw hc
  refine ⟨same, fun r r' hr hr' hbn hbk hdn n start hst hor ⟨names, hw⟩ hc => ?_⟩
  have v := R.values hr hb hbn hbk (by rw [e]; exact hdn) (R.start rfl hst)
  have v' := R'.values hr' hb hbn hbk (by rw [e']; exact hdn) (R'.start rfl hst)
  rw [e] at v
  rw [e'] at v'
  by_cases hg : Given n start ds
  · obtain ⟨o, o1, o2⟩ := v.2 hg hor
    obtain ⟨o', o1', o2'⟩ := v'.2 hg hor
    rw [same _ _ hw hc, o1'] at o1
    cases o1
    rw [o2, o2']
  · have k1 : dget n r = none := by
      have := fun hh => hg (v.1.1 hh)
      simpa using this
    have k2 : dget n r' = none := by
      have := fun hh => hg (v'.1.1 hh)
      simpa using this
    rw [k1, k2]

/-- **C119** A recipe with one `include` or `require` is read into a fresh stash. The file is found and consists of entries. `ExpandVar` for the recipe then gives items for exactly the variables
with a value by the declarations before the line, those of the included file, and those after the line, in this order, and for each the items of the expansion of the text that follows
from these declarations. -/
theorem C119_values (W D : World) (ns neg : Bool) (consts : J) (hu : UsableConstants consts) (uid k : Nat) (p q name : Str) (off : Int) (forced : Option Str) (u : Stash) (res : List Item)
    (h : addFile W k p off forced (Stash.init ns neg consts uid) = (.ok res, u)) (es es' es2 : List Entry) (hf : IncludingFile W p es name es2) (hf' : EntryFile W q es')
    (hp : c!".bb" <:+ abspath W.cwd p) (hq : findLocalOrLayer W name (dirname (abspath W.cwd p)) = .ok q) (hne : q ≠ []) (hext : (splitext (abspath W.cwd q)).2 ∈ [c!".inc", c!".conf"])
    (hign : ∀ ign, includeIgnore consts = .ok ign → ign.has name = false)
    (r : List (Str × List Str)) (hr : expandVar D u (some (abspath W.cwd p)) .none .none false = .ok r)
    (b : KV) (hb : setsBase consts = .ok (.dict b)) (hbn : b.keys.Nodup) (hbk : ∀ x ∈ b.keys, '$' ∉ x ∧ '(' ∉ x) (ds : List Decl) (hds : ds = decls es ++ (decls es' ++ decls es2))
    (hdn : ∀ d ∈ ds, '$' ∉ d.name ∧ '(' ∉ d.name) (n : Str) (start : Option Str) (hst : Base (Stash.init ns neg consts uid) (abspath W.cwd p) n start) :
    ((dget n r).isSome = true ↔ Given n start ds) ∧
    (Given n start ds → byOperators n start ds ≠ none ∨ texts n c!"remove" ds = [] →
      ∃ o, expandTerm D u (abspath W.cwd p) (without ((texts n c!"prepend" ds).reverse.flatten ++ (byOperators n start ds).getD [] ++ (texts n c!"append" ds).flatten)
        (texts n c!"remove" ds)) = .ok o ∧ dget n r = some (safeLinesplit o)) := by
  obtain ⟨its, R⟩ := include_read hu h hf hf' hp hq hne hext hb hign
  have e := (decls_including es es' es2).trans hds.symm
  have := R.values hr hb hbn hbk (by rw [e]; exact hdn) (R.start rfl hst)
  rwa [e] at this

/-- **C119** (references). `ExpandTerm` for the recipe replaces the references of a text as these declarations say. -/
theorem C119_references (W D : World) (ns neg : Bool) (consts : J) (hu : UsableConstants consts) (uid k : Nat) (p q name : Str) (off : Int) (forced : Option Str) (u : Stash) (res : List Item)
    (h : addFile W k p off forced (Stash.init ns neg consts uid) = (.ok res, u)) (es es' es2 : List Entry) (hf : IncludingFile W p es name es2) (hf' : EntryFile W q es')
    (hp : c!".bb" <:+ abspath W.cwd p) (hq : findLocalOrLayer W name (dirname (abspath W.cwd p)) = .ok q) (hne : q ≠ []) (hext : (splitext (abspath W.cwd q)).2 ∈ [c!".inc", c!".conf"])
    (hign : ∀ ign, includeIgnore consts = .ok ign → ign.has name = false)
    (b : KV) (hb : setsBase consts = .ok (.dict b)) (hd : ∀ k j, b.get k = some j → ∃ t, j = .str t) (value o : Str) (hc : NoCalls value)
    (ho : Filled b (decls es ++ (decls es' ++ decls es2)) (abspath W.cwd p) value o) : expandTerm D u (abspath W.cwd p) value = .ok o := by
  obtain ⟨its, R⟩ := include_read hu h hf hf' hp hq hne hext hb hign
  rw [← decls_including] at ho
  exact C51_expansion_substitutes D u _ [] value o _ (R.base.trans hb) hc (R.filled hb hd ho)

/-- **C119** (in place). On another disk the recipe has the text of the included file in place of the line. If no declaration depends on itself, both expand every text alike, and `ExpandVar` gives
the same items for each variable whose text calls no functions. -/
theorem C119_in_place (W W' D : World) (ns neg ns' neg' : Bool) (consts : J) (hu : UsableConstants consts) (uid uid' k k' : Nat) (p q name : Str) (off off' : Int) (forced forced' : Option Str)
    (u u' : Stash) (res res' : List Item) (hcwd : W'.cwd = W.cwd)
    (h : addFile W k p off forced (Stash.init ns neg consts uid) = (.ok res, u)) (h' : addFile W' k' p off' forced' (Stash.init ns' neg' consts uid') = (.ok res', u'))
    (es es' es2 : List Entry) (hf : IncludingFile W p es name es2) (hf' : EntryFile W q es') (hf2 : EntryFile W' p (es ++ (es' ++ es2)))
    (hp : c!".bb" <:+ abspath W.cwd p) (hq : findLocalOrLayer W name (dirname (abspath W.cwd p)) = .ok q) (hne : q ≠ []) (hext : (splitext (abspath W.cwd q)).2 ∈ [c!".inc", c!".conf"])
    (hign : ∀ ign, includeIgnore consts = .ok ign → ign.has name = false)
    (b : KV) (hb : setsBase consts = .ok (.dict b)) (hd : ∀ k j, b.get k = some j → ∃ t, j = .str t) (ds : List Decl) (hds : ds = decls es ++ (decls es' ++ decls es2))
    (rank : Str → Nat) (hr : Ranked b ds rank) (hempty : stands b ds [] = none) (hff : ∀ n t, FromFileName (abspath W.cwd p) n t → '$' ∉ t) :
    (∀ value names, Written value names → NoCalls value → expandTerm D u (abspath W.cwd p) value = expandTerm D u' (abspath W.cwd p) value) ∧
    ∀ r r', expandVar D u (some (abspath W.cwd p)) .none .none false = .ok r → expandVar D u' (some (abspath W.cwd p)) .none .none false = .ok r' →
      b.keys.Nodup → (∀ x ∈ b.keys, '$' ∉ x ∧ '(' ∉ x) → (∀ d ∈ ds, '$' ∉ d.name ∧ '(' ∉ d.name) →
      ∀ n start, Base (Stash.init ns neg consts uid) (abspath W.cwd p) n start → byOperators n start ds ≠ none ∨ texts n c!"remove" ds = [] →
      (∃ names, Written (without ((texts n c!"prepend" ds).reverse.flatten ++ (byOperators n start ds).getD [] ++ (texts n c!"append" ds).flatten) (texts n c!"remove" ds)) names) →
      NoCalls (without ((texts n c!"prepend" ds).reverse.flatten ++ (byOperators n start ds).getD [] ++ (texts n c!"append" ds).flatten) (texts n c!"remove" ds)) → dget n r = dget n r' := by
  obtain ⟨its, R⟩ := include_read hu h hf hf' hp hq hne hext hb hign
  obtain ⟨t, ls, gs, f1, f2, f3, f4⟩ := hf2.text
  have R' := recipe_read hu h' f1 f2 f3 f4
  rw [hcwd] at R'
  have e := (decls_including es es' es2).trans hds.symm
  have e' : decls (es ++ (es' ++ es2)) = ds := by rw [decls_append, decls_append, hds]
  exact R.same_values R' e e' hb hd hr hempty hff

/-- one entry on each line, and the line of the include -/
theorem includingFile_lines {W : World} {path stmt ws name : Str} {es es2 : List Entry}
    (hf : W.file (abspath W.cwd path) = .text ((es.map (fun e => e.stmt.text) ++ (stmt ++ (ws ++ name)) :: es2.map (fun e => e.stmt.text)).map (fun x => x ++ c!"\n")).flatten)
    (hes : ∀ e ∈ es ++ es2, e.Ok ∧ OneLine e.stmt.text ∧ ¬ c!"${@" <:+: e.stmt.text) (hl : OneLine (stmt ++ (ws ++ name)) ∧ ¬ c!"${@" <:+: stmt ++ (ws ++ name))
    (hs : stmt = c!"include" ∨ stmt = c!"require") (hw : Gap ws) (hn : name ≠ [] ∧ (∀ c ∈ name, IncChar c) ∧ '$' ∉ name ∧ '(' ∉ name) : IncludingFile W path es name es2 := by
  obtain ⟨g1, g2, g3⟩ := one_line_texts (sts := es.map (fun e => e.stmt.text) ++ (stmt ++ (ws ++ name)) :: es2.map (fun e => e.stmt.text)) (by
    intro x hx
    simp only [List.mem_append, List.mem_map, List.mem_cons] at hx
    rcases hx with ⟨e, he, rfl⟩ | rfl | ⟨e, he, rfl⟩
    · exact (hes e (by simp [he])).2
    · exact hl
    · exact (hes e (by simp [he])).2)
  have key : ∀ l : List Entry, l ⊆ es ++ es2 → List.Forall₂ (fun g e => ¬ c!"${@" <:+: g.flatten ∧ joined g.flatten = e.stmt.text ∧ e.Ok) (l.map (fun e => [e.stmt.text ++ c!"\n"])) l := by
    intro l hsub
    rw [List.forall₂_map_left_iff, List.forall₂_same]
    intro e he
    simp only [List.flatten_cons, List.flatten_nil, List.append_nil]
    have hm := hsub he
    obtain ⟨k1, k2⟩ := g3 e.stmt.text (by
      rcases List.mem_append.1 hm with h | h
      · exact List.mem_append_left _ (List.mem_map_of_mem h)
      · exact List.mem_append_right _ (List.mem_cons_of_mem _ (List.mem_map_of_mem h)))
    exact ⟨k1, k2, (hes e hm).1⟩
  refine ⟨⟨_, _, es.map (fun e => [e.stmt.text ++ c!"\n"]), [stmt ++ (ws ++ name) ++ c!"\n"], es2.map (fun e => [e.stmt.text ++ c!"\n"]), stmt, ws, hf, g1, ?_, key es (fun x hx => by simp [hx]), ?_,
    key es2 (fun x hx => by simp [hx])⟩, hn⟩
  · have e : es.map (fun e => [e.stmt.text ++ c!"\n"]) ++ [stmt ++ (ws ++ name) ++ c!"\n"] :: es2.map (fun e => [e.stmt.text ++ c!"\n"]) =
        ((es.map (fun e => e.stmt.text) ++ (stmt ++ (ws ++ name)) :: es2.map (fun e => e.stmt.text)).map (fun x => x ++ c!"\n")).map (fun x => [x]) := by
      simp only [List.map_append, List.map_cons, List.map_map]; rfl
    rw [e]
    exact g2
  · obtain ⟨k1, k2⟩ := g3 (stmt ++ (ws ++ name)) (by simp)
    simp only [List.flatten_cons, List.flatten_nil, List.append_nil]
    exact ⟨k1, k2, hs, hw⟩
end

section
attribute [local instance] Sample.asciiUni
open Spec

/-- a recipe before the include -/
def Sample.incBefore : List Entry := [ .decl ⟨c!"A", [], c!"?=", c!"1"⟩, .decl ⟨c!"B", [], c!"=", c!"${C}"⟩ ]
/-- the included file -/
def Sample.incInner : List Entry := [ .decl ⟨c!"A", [], c!"+=", c!"2"⟩, .other (.blank []), .decl ⟨c!"C", [], c!"=", c!"3"⟩ ]
/-- the recipe after the include -/
def Sample.incAfter : List Entry := [ .decl ⟨c!"A", [], c!"+=", c!"4"⟩, .decl ⟨c!"B", [c!"append"], c!"=", c!" x"⟩ ]
/-- the disk with both files -/
def Sample.incDisk : World := Sample.world
  [(c!"/w/a_1.0.bb", ((Sample.incBefore.map (fun e => e.stmt.text) ++ (c!"require" ++ (c!" " ++ c!"a.inc")) :: Sample.incAfter.map (fun e => e.stmt.text)).map (fun x => x ++ c!"\n")).flatten),
   (c!"/w/a.inc", (Sample.incInner.map (fun e => e.stmt.text ++ c!"\n")).flatten)]

theorem Sample.inc_ok : ∀ e ∈ Sample.incBefore ++ Sample.incAfter ++ Sample.incInner, e.Ok ∧ OneLine e.stmt.text ∧ ¬ c!"${@" <:+: e.stmt.text := by
  have hin : ∀ e ∈ Sample.incBefore ++ Sample.incAfter ++ Sample.incInner, '@' ∉ e.stmt.text := by decide +kernel
  have hone : ∀ e ∈ Sample.incBefore ++ Sample.incAfter ++ Sample.incInner, (∀ c ∈ e.stmt.text, c ≠ '\n' ∧ c ≠ '\r' ∧ c ≠ '\\' ∧ c ≠ '(') ∧ e.stmt.text.head? ≠ some '#' ∧
      ¬ c!"def " <+: (e.stmt.text ++ c!"\n").dropWhile pySpace := by decide +kernel
  intro e he
  refine ⟨?_, oneLine_of_chars (hone e he).1 (hone e he).2.1 (hone e he).2.2, ?_⟩
  · simp only [Sample.incBefore, Sample.incInner, Sample.incAfter, List.cons_append, List.nil_append, List.mem_cons, List.not_mem_nil, or_false] at he
    rcases he with rfl | rfl | rfl | rfl | rfl | rfl | rfl <;>
      first
      | exact ⟨by show Tabs _; unfold Tabs; decide, rfl⟩
      | exact Sample.entry (by decide) (by decide) (by decide) (by decide) (by decide) (by decide)
  · rintro ⟨a, b, e'⟩
    exact hin e he (by rw [← e']; simp)

theorem Sample.inc_file : IncludingFile Sample.incDisk c!"/w/a_1.0.bb" Sample.incBefore c!"a.inc" Sample.incAfter := by
  refine includingFile_lines (stmt := c!"require") (ws := c!" ") rfl (fun e he => Sample.inc_ok e (List.mem_append_left _ he)) ⟨oneLine_of_chars (by decide) (by decide) (by decide), ?_⟩
    (.inr rfl) ⟨by decide, by decide⟩ ⟨by decide, by decide, by decide, by decide⟩
  rintro ⟨a, b, e'⟩
  have h1 : '@' ∈ c!"require" ++ (c!" " ++ c!"a.inc") := by rw [← e']; simp
  revert h1; decide

/-- all hypotheses of C119 hold for these two files -/
example (k : Nat) (off : Int) (u : Stash) (res : List Item) (h : addFile Sample.incDisk k c!"/w/a_1.0.bb" off none (Stash.init false false Sample.constants 0) = (.ok res, u)) (D : World)
    (r : List (Str × List Str)) (hr : expandVar D u (some c!"/w/a_1.0.bb") .none .none false = .ok r) :
    dget c!"A" r = some [c!"1", c!"2", c!"4"] ∧ dget c!"B" r = some [c!"3", c!"x"] := by
  have hb : setsBase Sample.constants = .ok J.empty := Sample.emptyBase (u := Stash.init false false Sample.constants 0) (by decide +kernel)
  have f2 : EntryFile Sample.incDisk c!"/w/a.inc" Sample.incInner := entryFile_lines rfl (fun e he => Sample.inc_ok e (List.mem_append_right _ he))
  have hq : findLocalOrLayer Sample.incDisk c!"a.inc" (dirname (abspath Sample.incDisk.cwd c!"/w/a_1.0.bb")) = .ok c!"/w/a.inc" := by decide +kernel
  have hign : ∀ ign, includeIgnore Sample.constants = .ok ign → ign.has c!"a.inc" = false := by
    intro ign h
    have : (match includeIgnore Sample.constants with | .ok j => j.has c!"a.inc" | _ => false) = false := by decide +kernel
    rw [h] at this
    exact this
  have main := fun n hn => C119_values Sample.incDisk D false false Sample.constants Sample.usableConstants 0 k _ _ _ off none u res h _ _ _ Sample.inc_file f2 (by decide) hq (by decide) (by decide) hign
    r hr .nil hb (by decide) (by decide) _ rfl (by decide) n none (.none hb rfl hn)
  have refs := fun v o hc ho => C119_references Sample.incDisk D false false Sample.constants Sample.usableConstants 0 k _ _ _ off none u res h _ _ _ Sample.inc_file f2 (by decide) hq (by decide)
    (by decide) hign .nil hb (by rintro k j ⟨⟩) v o hc ho
  refine ⟨?_, ?_⟩
  · obtain ⟨o, h1, h2⟩ := (main c!"A" (by decide)).2 (.inl (by decide)) (.inl (by decide))
    have := refs c!"1 2 4" c!"1 2 4" ⟨by decide, by unfold ReadsFile; decide⟩
      (.char (by decide) (.char (by decide) (.char (by decide) (.char (by decide) (.char (by decide) .nil)))))
    cases this.symm.trans h1
    rw [h2]
    decide +kernel
  · obtain ⟨o, h1, h2⟩ := (main c!"B" (by decide)).2 (.inl (by decide)) (.inl (by decide))
    have := refs c!"${C} x" c!"3 x" ⟨by decide, by unfold ReadsFile; decide⟩
      (.text (n := c!"C") (t := c!"3") (v := c!"3") (r := c!" x") (Sample.name _ (by decide)) (by decide) ⟨by decide, by unfold ReadsFile; decide⟩ (.char (by decide) .nil)
        (.char (by decide) (.char (by decide) .nil)))
    cases this.symm.trans h1
    rw [h2]
    decide +kernel

/-- the recipe with the text of the included file in place of the line -/
def Sample.inPlaceDisk : World := Sample.world [(c!"/w/a_1.0.bb", ((Sample.incBefore ++ (Sample.incInner ++ Sample.incAfter)).map (fun e => e.stmt.text ++ c!"\n")).flatten)]

example : EntryFile Sample.inPlaceDisk c!"/w/a_1.0.bb" (Sample.incBefore ++ (Sample.incInner ++ Sample.incAfter)) :=
  entryFile_lines rfl (fun e he => Sample.inc_ok e (by
    simp only [List.mem_append] at he ⊢
    rcases he with h | h | h
    exacts [.inl (.inl h), .inr h, .inl (.inr h)]))

/-- both calls succeed and give these values -/
example : ∀ W ∈ [Sample.incDisk, Sample.inPlaceDisk], ((Sample.addAll W [c!"/w/a_1.0.bb"] (Stash.init false false Sample.constants 0)).bind fun u =>
    (expandVar (Sample.world []) u (some c!"/w/a_1.0.bb") .none .none false).toOption.map (fun e => (dget c!"A" e, dget c!"B" e))) = some (some [c!"1", c!"2", c!"4"], some [c!"3", c!"x"]) := by
  intro W hW
  simp only [List.mem_cons, List.not_mem_nil, or_false] at hW
  rcases hW with rfl | rfl <;> decide +kernel
end
end Oelint

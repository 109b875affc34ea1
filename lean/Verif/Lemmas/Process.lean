import Verif.Spec.Process
import Verif.Lemmas.Still
import Verif.Lemmas.TwoInstances
/-! Stashes of one process do not influence each other (C100). -/
set_option linter.unusedSectionVars false
set_option linter.unusedSimpArgs false
namespace Oelint
variable [Uni]
open Spec

/-- the same stash with truthful caches that agree on what is never emptied -/
structure Near (W : World) (c c' : CStash) : Prop where
  base : c'.base = c.base
  valid : Valid W c
  valid' : Valid W c'
  old : ∀ k : CKey, k.kept = false → c'.tab.lookup k = c.tab.lookup k

/-- the program cannot tell the two apart -/
def NearSim {α : Type} (W : World) (x : CM α) : Prop :=
  ∀ c c', Near W c c' → (x c').1 = (x c).1 ∧ Near W (x c).2 (x c').2

section
variable {W : World} {α β : Type}

theorem nearSim_reads {x : CM α} {f : Stash → Except PyErr α} (h : CReads W x f) (hs : Still W (fun k => k.kept = false) x) : NearSim W x := by
  intro c c' hn
  obtain ⟨d, h1, h2, h3⟩ := h c hn.valid
  obtain ⟨d', h1', h2', h3'⟩ := h c' hn.valid'
  have e := (hs c).2
  have e' := (hs c').2
  rw [h1] at e ⊢
  rw [h1'] at e' ⊢
  exact ⟨by rw [hn.base], ⟨by rw [h2, h2', hn.base], h3, h3', fun k hk => by rw [e k hk, e' k hk, hn.old k hk]⟩⟩

theorem nearSim_bind {x : CM α} {g : α → CM β} (hx : NearSim W x) (hg : ∀ a, NearSim W (g a)) : NearSim W (x >>= g) := by
  intro c c' hn
  obtain ⟨h1, h2⟩ := hx c c' hn
  rw [CM.bind_def, CM.bind_def]
  rcases hc : x c with ⟨r, d⟩
  rcases hc' : x c' with ⟨r', d'⟩
  rw [hc, hc'] at h1 h2
  simp only at h1 h2
  subst h1
  cases r' with
  | error e => exact ⟨rfl, h2⟩
  | ok a => exact hg a d d' h2

theorem nearSim_memo {k : CKey} {x : CM CVal} (hk : k.kept = false) (hx : NearSim W x) : NearSim W (memo k x) := by
  intro c c' hn
  unfold memo
  rw [hn.old k hk]
  cases hl : c.tab.lookup k with
  | some v => exact ⟨rfl, hn⟩
  | none =>
    obtain ⟨h1, h2⟩ := hx c c' hn
    rcases hc : x c with ⟨r, d⟩
    rcases hc' : x c' with ⟨r', d'⟩
    rw [hc, hc'] at h1 h2
    simp only at h1 h2
    subst h1
    cases r' with
    | error e => exact ⟨rfl, h2⟩
    | ok a =>
      refine ⟨rfl, ⟨h2.base, fun e he hke => ?_, fun e he hke => ?_, fun k' hk' => ?_⟩⟩
      · rcases List.mem_cons.1 he with rfl | he
        · rw [hk] at hke; cases hke
        · exact h2.valid e he hke
      · rcases List.mem_cons.1 he with rfl | he
        · rw [hk] at hke; cases hke
        · exact h2.valid' e he hke
      · show List.lookup k' ((k, a) :: d'.tab) = List.lookup k' ((k, a) :: d.tab)
        rw [List.lookup_cons, List.lookup_cons, h2.old k' hk']

theorem nearSim_packagesDynamic (file : Str) : NearSim W (cPackagesDynamic W file) :=
  nearSim_bind (nearSim_memo rfl (nearSim_bind (nearSim_reads (reads_itemsFor _) (still_itemsFor W (fun _ h => h) _)) (fun _ =>
    nearSim_bind (nearSim_reads (reads_dynLoop file _ _) (still_dynLoop W (fun _ h => h) _ _ _)) (fun _ =>
      nearSim_reads (CReads.pure _) (still_pure _))))) (fun _ => nearSim_reads (CReads.pure _) (still_pure _))

/-- a question is answered the same -/
theorem nearSim_question (q : Question) : NearSim W (q.ask W) := by
  cases hq : q.neverCleared with
  | false => exact nearSim_reads (reads_question q hq) (still_question W (fun _ h => h) q (Or.inl hq))
  | true =>
    cases q with
    | bbClasses =>
      exact nearSim_bind (nearSim_bind (nearSim_memo rfl (nearSim_reads (CReads.ask _) (still_ask _)))
        (fun _ => nearSim_reads (CReads.pure _) (still_pure _))) (fun _ => nearSim_reads (CReads.pure _) (still_pure _))
    | packagesDynamic f => exact nearSim_bind (nearSim_packagesDynamic f) (fun _ => nearSim_reads (CReads.pure _) (still_pure _))
    | isDynamicPackage f n =>
      exact nearSim_bind (nearSim_bind (nearSim_memo rfl (nearSim_bind
        (nearSim_reads (reads_expandTerm f n) (still_expandTermS W (fun _ h => h) _ _ _)) (fun _ => nearSim_bind (nearSim_packagesDynamic f) (fun _ =>
          nearSim_bind (nearSim_reads (CReads.lift _) (still_lift _)) (fun _ => nearSim_reads (CReads.pure _) (still_pure _))))))
        (fun _ => nearSim_reads (CReads.pure _) (still_pure _))) (fun _ => nearSim_reads (CReads.pure _) (still_pure _))
    | _ => cases hq

/-- with truthful caches, a call does what it does without caches -/
theorem call_plain {k : Call} {d : Nat} {c : CStash} (hc : Valid W c) (hf : k = .finalize → NoCleared c) :
    ∃ r c', k.perform W d c = (r, c') ∧ k.plain W d c.base = (r, c'.base) := by
  by_cases hk : k = .finalize
  · have hn := hf hk
    subst hk
    obtain ⟨r, c', h1, h2⟩ := cFinalize_fresh (W := W) c hc hn
    show ∃ r c', (cFinalize W >>= fun _ => (Pure.pure [] : CM (List Item))) c = (r, c') ∧
      (finalize W >>= fun _ => (Pure.pure [] : M (List Item))) c.base = (r, c'.base)
    rw [CM.bind_def, M.bind_def, h1, h2]
    cases r with
    | error e => exact ⟨_, c', rfl, rfl⟩
    | ok u => exact ⟨_, c', rfl, rfl⟩
  · obtain ⟨r, c', h1, h2, _⟩ := sim_call (W := W) k d hk c hc
    exact ⟨r, c', h1, h2⟩

theorem near_call {k : Call} {d : Nat} {c c' : CStash} (hn : Near W c c') (hf : k = .finalize → NoCleared c ∧ NoCleared c') :
    (k.perform W d c').1 = (k.perform W d c).1 ∧
    ∀ r, (k.perform W d c).1 = .ok r → Near W (k.perform W d c).2 (k.perform W d c').2 := by
  obtain ⟨r, e, h1, h2⟩ := call_plain (k := k) (d := d) hn.valid (fun h => (hf h).1)
  obtain ⟨r', e', h1', h2'⟩ := call_plain (k := k) (d := d) hn.valid' (fun h => (hf h).2)
  rw [hn.base, h2] at h2'
  have s := (still_call (ks := fun k => k.kept = false) W (fun _ h => h) d k c).2
  have s' := (still_call (ks := fun k => k.kept = false) W (fun _ h => h) d k c').2
  rw [h1] at s ⊢
  rw [h1'] at s' ⊢
  obtain ⟨er, eb⟩ := Prod.mk.inj h2'
  subst er
  refine ⟨rfl, fun a ha => ?_⟩
  simp only at ha
  subst ha
  exact ⟨eb.symm, valid_call hn.valid h1, valid_call hn.valid' h1', fun k hk => by rw [s k hk, s' k hk, hn.old k hk]⟩

theorem near_clear {c c' : CStash} (hn : Near W c c') : Near W c c'.clear :=
  ⟨hn.base, hn.valid, valid_clear hn.valid'.lasting, fun k hk => by rw [lookup_clear c' hk, hn.old k hk]⟩

theorem noCleared_clearAll (c : CStash) : NoCleared c.clear := clear_notCleared c

/-- some question has been asked since the caches were certainly emptied -/
def Pending (W : World) (l : List Act) : Prop :=
  ∃ pre q mid, l = pre ++ .ask q :: mid ∧ ∀ d k, Act.call d k ∈ mid → k.empties W = false

theorem pending_ask (l : List Act) (q : Question) : Pending W (l ++ [.ask q]) := ⟨l, q, [], rfl, fun _ _ h => by cases h⟩

theorem pending_call {l : List Act} {d : Nat} {k : Call} (h : Pending W l) (hk : k.empties W = false) : Pending W (l ++ [.call d k]) := by
  obtain ⟨pre, q, mid, rfl, h⟩ := h
  refine ⟨pre, q, mid ++ [.call d k], by simp, fun d' k' hm => ?_⟩
  rcases List.mem_append.1 hm with hm | hm
  · exact h d' k' hm
  · rw [List.mem_singleton] at hm; cases hm; exact hk

theorem not_pending {l : List Act} {d : Nat} (h : EmptiedBeforeFinalize W (l ++ [.call d .finalize])) : ¬ Pending W l := by
  rintro ⟨pre, q, mid, rfl, hm⟩
  obtain ⟨d', k, h1, h2⟩ := h pre q mid d [] (by simp)
  rw [hm d' k h1] at h2
  cases h2

theorem emptied_prefix {l m : List Act} (h : EmptiedBeforeFinalize W (l ++ m)) : EmptiedBeforeFinalize W l := by
  intro pre q mid d post he
  exact h pre q mid d (post ++ m) (by rw [he]; simp)

/-- a call that certainly empties the caches is not skipped -/
theorem emptied_call {k : Call} {d : Nat} {c c' : CStash} {r : List Item} (hco : ClassesOnly c.base) (hk : k.empties W = true)
    (h : k.perform W d c = (.ok r, c')) : NoCleared c' := by
  rcases cleared_call h with ⟨-, p, o, f, rfl, hs⟩ | h
  · exfalso
    have := (seen_of_alreadySeen hco hs).2
    unfold Call.empties at hk
    simp only [List.contains_eq_mem, decide_eq_true_eq, List.mem_cons, List.not_mem_nil, or_false] at hk this
    tauto
  · exact h

theorem noCleared_call {k : Call} {d : Nat} {c c' : CStash} {r : List Item} (hn : NoCleared c) (h : k.perform W d c = (.ok r, c')) :
    NoCleared c' := by
  rcases cleared_call h with ⟨rfl, -⟩ | h
  · exact hn
  · exact h

/-- the stash `c` after the acts `l`, alone, and the same stash `c'` whose caches may have been emptied by others -/
structure Beside (W : World) (l : List Act) (c c' : CStash) : Prop where
  near : Near W c c'
  classes : ClassesOnly c.base
  caches : Pending W l ∨ (NoCleared c ∧ NoCleared c')

theorem beside_clear {l : List Act} {c c' : CStash} (h : Beside W l c c') : Beside W l c c'.clear :=
  ⟨near_clear h.near, h.classes, h.caches.imp id (fun hn => ⟨hn.1, noCleared_clearAll c'⟩)⟩

/-- what the user sees of the next act, even if it raises -/
theorem beside_reply {l : List Act} {c c' : CStash} (h : Beside W l c c') (a : Act) (he : EmptiedBeforeFinalize W (l ++ [a])) :
    (a.run W c').1 = (a.run W c).1 := by
  cases a with
  | ask q =>
    obtain ⟨h1, -⟩ := nearSim_question q c c' h.near
    show Reply.answer _ = Reply.answer _
    rw [h1]
  | call d k =>
    obtain ⟨h1, -⟩ := near_call (k := k) (d := d) h.near (by
      rintro rfl
      exact h.caches.resolve_left (not_pending he))
    show Reply.result _ = Reply.result _
    rw [h1]

theorem beside_act {l : List Act} {c c' : CStash} (h : Beside W l c c') (a : Act) (he : EmptiedBeforeFinalize W (l ++ [a]))
    (hok : ∀ e, (a.run W c').1 ≠ .result (.error e)) :
    (a.run W c').1 = (a.run W c).1 ∧ Beside W (l ++ [a]) (a.run W c).2 (a.run W c').2 := by
  cases a with
  | ask q =>
    obtain ⟨h1, h2⟩ := nearSim_question q c c' h.near
    refine ⟨by show Reply.answer _ = Reply.answer _; rw [h1], h2, ?_, Or.inl (pending_ask l q)⟩
    show ClassesOnly (q.ask W c).2.base
    rw [(keeps_question (W := W) q c h.near.valid).1]
    exact h.classes
  | call d k =>
    have hf : k = .finalize → NoCleared c ∧ NoCleared c' := by
      rintro rfl
      exact h.caches.resolve_left (not_pending he)
    obtain ⟨h1, h2⟩ := near_call (d := d) h.near hf
    obtain ⟨r, e, h3, h4⟩ := call_plain (k := k) (d := d) h.near.valid (fun hk => (hf hk).1)
    have hr : ∃ b, r = .ok b := by
      cases r with
      | ok b => exact ⟨b, rfl⟩
      | error x =>
        exfalso
        rw [h3] at h1
        exact hok x (by show Reply.result _ = _; rw [h1])
    obtain ⟨b, rfl⟩ := hr
    rw [h3] at h1
    have h5 := h2 b (by rw [h3])
    rcases hp : k.perform W d c' with ⟨r', e'⟩
    rw [hp] at h1
    simp only at h1
    subst h1
    rw [h3, hp] at h5
    have hrun : Act.run W (.call d k) c = (.result (.ok b), e) := by
      show (Reply.result (k.perform W d c).1, (k.perform W d c).2) = _
      rw [h3]
    have hrun' : Act.run W (.call d k) c' = (.result (.ok b), e') := by
      show (Reply.result (k.perform W d c').1, (k.perform W d c').2) = _
      rw [hp]
    rw [hrun, hrun']
    refine ⟨rfl, h5, ?_, ?_⟩
    · have := plain_classesOnly (W := W) k d c.base h.classes
      rw [h4] at this
      exact this
    · show Pending W _ ∨ NoCleared e ∧ NoCleared e'
      cases hk : k.empties W with
      | true =>
        exact Or.inr ⟨emptied_call h.classes hk h3, emptied_call (by rw [h.near.base]; exact h.classes) hk hp⟩
      | false =>
        rcases h.caches with hc | hc
        · exact Or.inl (pending_call hc hk)
        · exact Or.inr ⟨noCleared_call hc.1 h3, noCleared_call hc.2 hp⟩

theorem afterActs_append (l m : List Act) (c : CStash) : afterActs W (l ++ m) c = afterActs W m (afterActs W l c) := by
  induction l generalizing c with
  | nil => rfl
  | cons a l ih => cases a <;> exact ih _

theorem observe_append (l m : List Act) (c : CStash) : observe W (l ++ m) c = observe W l c ++ observe W m (afterActs W l c) := by
  induction l generalizing c with
  | nil => rfl
  | cons a l ih =>
    cases a with
    | ask q => exact congrArg (_ :: ·) (ih _)
    | call d k => exact congrArg (_ :: ·) (ih _)

theorem observe_run (a : Act) (c : CStash) : observe W [a] c = [(a.run W c).1] := by cases a <;> rfl
theorem after_run (a : Act) (c : CStash) : afterActs W [a] c = (a.run W c).2 := by cases a <;> rfl

/-- an act changes nothing but the known names of the constants -/
theorem run_grows (a : Act) (c : CStash) : Grows W c.base (a.run W c).2.base := by
  cases a with
  | ask q => exact (still_question (ks := fun _ => False) W (fun _ h => h.elim) q (Or.inr fun _ h => h) c).1
  | call d k => exact (still_call (ks := fun _ => False) W (fun _ h => h.elim) d k c).1

/-- the act on two stashes that differ in the known names -/
theorem run_names (a : Act) {c c' : CStash} (h : CRel NamesRel c c') :
    (a.run W c').1 = (a.run W c).1 ∧ CRel NamesRel (a.run W c).2 (a.run W c').2 := by
  cases a with
  | ask q =>
    obtain ⟨h1, h2⟩ := (twin_names W).ask_sim q c c' h
    exact ⟨by show Reply.answer _ = Reply.answer _; rw [h1], h2⟩
  | call d k =>
    obtain ⟨h1, h2⟩ := (twin_names W).perform_sim d k c c' h
    exact ⟨by show Reply.result _ = Reply.result _; rw [h1], h2⟩

theorem otherNames_refl (db : J) : OtherNames db db := fun _ _ _ _ _ => rfl
theorem otherNames_trans {a b c : J} (h1 : OtherNames a b) (h2 : OtherNames b c) : OtherNames a c :=
  fun ks k1 k2 k3 k4 => (h2 ks k1 k2 k3 k4).trans (h1 ks k1 k2 k3 k4)

theorem under_run (a : Act) (c : CStash) : underConsts (a.run W c).2.base.consts (a.run W c).2 = (a.run W c).2 := rfl

theorem actsOn_append (i : Nat) (l m : List (Deed × Option Reply)) : actsOn i (l ++ m) = actsOn i l ++ actsOn i m := List.filterMap_append
theorem repliesOf_append (i : Nat) (l m : List (Deed × Option Reply)) : repliesOf i (l ++ m) = repliesOf i l ++ repliesOf i m :=
  List.filterMap_append
theorem makings_append (l m : List (Deed × Option Reply)) : makings (l ++ m) = makings l ++ makings m := List.filterMap_append

/-- stash number `i` of the process and the same stash alone -/
structure Tracks (W : World) (db : J) (l : List (Deed × Option Reply)) (P : Process) (i : Nat) (q n g : Bool) (u : Nat) : Prop where
  state : ∃ c mid, P.stashes[i]? = some c ∧ CRel NamesRel mid (underConsts P.consts c) ∧
    Beside W (actsOn i l) (afterActs W (actsOn i l) (newStash q n g u db)) mid
  seen : repliesOf i l = observe W (actsOn i l) (newStash q n g u db)

/-- what holds of a process that started with the constants `db` -/
structure Tracked (W : World) (db : J) (l : List (Deed × Option Reply)) (P : Process) : Prop where
  usable : UsableConstants P.consts
  names : OtherNames db P.consts
  length : (makings l).length = P.stashes.length
  unborn : ∀ i, P.stashes.length ≤ i → actsOn i l = [] ∧ repliesOf i l = []
  tracks : ∀ i q n g u, (makings l)[i]? = some (q, n, g, u) → NoRaise (repliesOf i l) → EmptiedBeforeFinalize W (actsOn i l) →
    Tracks W db l P i q n g u

/-- what others do to a stash -/
theorem disturbed {db' : J} {l : List Act} {a mid : CStash} {c d : CStash} {P : Process} (hc : CRel NamesRel mid (underConsts P.consts c))
    (hb : Beside W l a mid) (hu : UsableConstants db') (ho : OtherNames P.consts db') (hd : d = c ∨ d = c.clear) :
    ∃ mid', CRel NamesRel mid' (underConsts db' d) ∧ Beside W l a mid' := by
  obtain ⟨h1, e, h2, h3, h4, h5⟩ := hc
  have e1 : e = P.consts := by
    have := congrArg Stash.consts h2
    exact this.symm
  subst e1
  have hrel : NamesRel mid.base { c.base with consts := db' } := by
    refine ⟨db', ?_, h3, hu, otherNames_trans h5 ho⟩
    have := congrArg (fun s : Stash => { s with consts := db' }) h2
    exact this
  rcases hd with rfl | rfl
  · exact ⟨mid, ⟨h1, hrel⟩, hb⟩
  · refine ⟨mid.clear, ⟨?_, hrel⟩, beside_clear hb⟩
    show (c.tab.filter _) = (mid.tab.filter _)
    rw [show c.tab = mid.tab from h1]

theorem sound_run {db : J} {l : List (Deed × Option Reply)} {P0 P : Process} (h : Process.Run W P0 l P) (h0 : P0 = { consts := db, stashes := [] })
    (hu : UsableConstants db) : Tracked W db l P := by
  induction h with
  | nil =>
    subst h0
    exact ⟨hu, otherNames_refl db, rfl, fun _ _ => ⟨rfl, rfl⟩, fun i q n g u h => by simp [makings] at h⟩
  | @snoc Q R l d r h hs ih =>
    cases hs with
    | make quiet ns neg uid =>
      have em : makings (l ++ [(Deed.make quiet ns neg uid, (none : Option Reply))]) = makings l ++ [(quiet, ns, neg, uid)] := makings_append _ _
      have ea : ∀ i, actsOn i (l ++ [(Deed.make quiet ns neg uid, (none : Option Reply))]) = actsOn i l := fun i => by
        rw [actsOn_append]; exact List.append_nil _
      have er : ∀ i, repliesOf i (l ++ [(Deed.make quiet ns neg uid, (none : Option Reply))]) = repliesOf i l := fun i => by
        rw [repliesOf_append]; exact List.append_nil _
      refine ⟨ih.usable, ih.names, by rw [em]; simp [ih.length], fun i hi => ?_, fun i q n g u hm hno hem => ?_⟩
      · rw [ea, er]
        refine ih.unborn i ?_
        simp only [List.length_append, List.length_map, List.length_cons, List.length_nil] at hi
        omega
      · rw [ea] at hem
        rw [er] at hno
        rw [em] at hm
        by_cases hlt : i < (makings l).length
        · rw [List.getElem?_append_left hlt] at hm
          obtain ⟨⟨c, mid, h1, h2, h3⟩, h4⟩ := ih.tracks i q n g u hm hno hem
          obtain ⟨mid', h5, h6⟩ := disturbed (d := c.clear) h2 h3 ih.usable (otherNames_refl _) (Or.inr rfl)
          refine ⟨⟨c.clear, mid', ?_, h5, ?_⟩, ?_⟩
          · rw [List.getElem?_append_left (by rw [List.length_map, ← ih.length]; exact hlt), List.getElem?_map, h1]
            rfl
          · rw [ea]; exact h6
          · rw [ea, er]; exact h4
        · have hlen : (makings l).length ≤ i := Nat.le_of_not_lt hlt
          rw [List.getElem?_append_right hlen] at hm
          have hi : i = (makings l).length := by
            cases hk : i - (makings l).length with
            | zero => omega
            | succ n => rw [hk] at hm; simp at hm
          subst hi
          simp only [Nat.sub_self, List.getElem?_cons_zero, Option.some.injEq, Prod.mk.injEq] at hm
          obtain ⟨rfl, rfl, rfl, rfl⟩ := hm
          obtain ⟨h1, h2⟩ := ih.unborn (makings l).length (by rw [ih.length])
          refine ⟨⟨newStash quiet ns neg uid Q.consts, newStash quiet ns neg uid db, ?_, ?_, ?_⟩, ?_⟩
          · rw [List.getElem?_append_right (by rw [List.length_map, ih.length]), List.length_map, ih.length]
            simp
          · exact ⟨rfl, Q.consts, rfl, hu, ih.usable, ih.names⟩
          · rw [ea, h1]
            exact ⟨⟨rfl, fun e he => (by cases he), fun e he => (by cases he), fun _ _ => rfl⟩, fun f hf => (by cases hf),
              Or.inr ⟨fun e he => (by cases he), fun e he => (by cases he)⟩⟩
          · rw [ea, er, h1, h2]; rfl
    | @act j c a hc others hl ho =>
      have hg := run_grows (W := W) a (underConsts Q.consts c)
      obtain ⟨g1, g2⟩ := hg ih.usable
      have hnames : OtherNames Q.consts (a.run W (underConsts Q.consts c)).2.base.consts := fun ks k1 k2 k3 k4 => g2.1 ks k1 k2 k3 k4
      have em : makings (l ++ [(Deed.act j a, some (a.run W (underConsts Q.consts c)).1)]) = makings l := by
        rw [makings_append]; exact List.append_nil _
      have ea : ∀ i, i ≠ j → actsOn i (l ++ [(Deed.act j a, some (a.run W (underConsts Q.consts c)).1)]) = actsOn i l := fun i hi => by
        rw [actsOn_append]
        have : actsOn i [(Deed.act j a, some (a.run W (underConsts Q.consts c)).1)] = [] := by
          simp [actsOn, Ne.symm hi]
        rw [this, List.append_nil]
      have er : ∀ i, i ≠ j → repliesOf i (l ++ [(Deed.act j a, some (a.run W (underConsts Q.consts c)).1)]) = repliesOf i l := fun i hi => by
        rw [repliesOf_append]
        have : repliesOf i [(Deed.act j a, some (a.run W (underConsts Q.consts c)).1)] = [] := by
          simp [repliesOf, Ne.symm hi]
        rw [this, List.append_nil]
      have eaj : actsOn j (l ++ [(Deed.act j a, some (a.run W (underConsts Q.consts c)).1)]) = actsOn j l ++ [a] := by
        rw [actsOn_append]; simp [actsOn]
      have erj : repliesOf j (l ++ [(Deed.act j a, some (a.run W (underConsts Q.consts c)).1)]) =
          repliesOf j l ++ [(a.run W (underConsts Q.consts c)).1] := by
        rw [repliesOf_append]; simp [repliesOf]
      have hj : j < Q.stashes.length := by
        rw [List.getElem?_eq_some_iff] at hc
        exact hc.1
      refine ⟨g1, otherNames_trans ih.names hnames, by rw [em]; simp [ih.length, hl], fun i hi => ?_, fun i q n g u hm hno hem => ?_⟩
      · simp only [List.length_set, hl] at hi
        have hij : i ≠ j := by omega
        rw [ea i hij, er i hij]
        exact ih.unborn i hi
      · rw [em] at hm
        by_cases hij : i = j
        · subst hij
          rw [eaj] at hem
          rw [erj] at hno
          obtain ⟨⟨c', mid, h1, h2, h3⟩, h4⟩ := ih.tracks i q n g u hm (fun e he => hno e (List.mem_append_left _ he)) (emptied_prefix hem)
          rw [hc] at h1
          cases h1
          obtain ⟨h5, h6⟩ := run_names (W := W) a h2
          obtain ⟨h7, h8⟩ := beside_act h3 a hem (fun e he => hno e (List.mem_append_right _ (by rw [h5, he]; exact List.mem_singleton.2 rfl)))
          refine ⟨⟨(a.run W (underConsts Q.consts c)).2, (a.run W mid).2, ?_, ?_, ?_⟩, ?_⟩
          · exact List.getElem?_set_self (by rw [hl]; exact hj)
          · exact h6
          · rw [eaj, afterActs_append, after_run]
            exact h8
          · rw [eaj, erj, observe_append, observe_run, h4, h5, h7]
        · rw [ea i hij] at hem
          rw [er i hij] at hno
          obtain ⟨⟨c', mid, h1, h2, h3⟩, h4⟩ := ih.tracks i q n g u hm hno hem
          have hoth : ∃ d, others[i]? = some d ∧ (d = c' ∨ d = c'.clear) := by
            rcases ho i hij with ho | ho
            · exact ⟨c', by rw [ho, h1], Or.inl rfl⟩
            · exact ⟨c'.clear, by rw [ho, h1]; rfl, Or.inr rfl⟩
          obtain ⟨d, hd1, hd2⟩ := hoth
          obtain ⟨mid', h5, h6⟩ := disturbed h2 h3 g1 hnames hd2
          refine ⟨⟨d, mid', ?_, h5, ?_⟩, ?_⟩
          · rw [List.getElem?_set_ne (Ne.symm hij)]; exact hd1
          · rw [ea i hij]; exact h6
          · rw [ea i hij, er i hij]; exact h4

end
end Oelint

import Verif.Model.Str
import Mathlib.Data.List.Perm.Basic
import Mathlib.Data.List.Nodup
/-! Walks through files that load each other: what is read does not depend on the order (C104). -/
set_option linter.unusedSectionVars false
namespace Oelint

section
variable {α : Type} (re : Str → Bool) (G : Str → α → Prop) (ch : α → List Str)

/-- `K` are the calls that the file with the content `a` makes: each of `ch a`; the ones that are read again each time as often as there -/
def KidsOf (a : α) (K : List Str) : Prop := (∀ x, x ∈ K ↔ x ∈ ch a) ∧ K.filter re = (ch a).filter re

/-- Files are asked for one after the other; the ones in `S` are known. A file that is known is skipped unless it is of those read
again each time (`re`). `E` are the files read with their contents, a file after the ones it loads. -/
inductive Walk : (Str → Prop) → List Str → List (Str × α) → (Str → Prop) → Prop
  | done {S} : Walk S [] [] S
  | skip {S f L E S'} : re f = false → S f → Walk S L E S' → Walk S (f :: L) E S'
  | read {S f L a K E1 S1 E2 S2} : (re f = false → ¬ S f) → G f a → KidsOf re ch a K → Walk (fun x => S x ∨ x = f) K E1 S1 →
      Walk S1 L E2 S2 → Walk S (f :: L) (E1 ++ (f, a) :: E2) S2

/-- what must be read, starting with the files `L` -/
inductive Gets (S : Str → Prop) (L : List Str) : Str → Prop
  | root {f} : f ∈ L → (re f = false → ¬ S f) → Gets S L f
  | step {g a f} : Gets S L g → G g a → f ∈ ch a → (re f = false → ¬ S f) → Gets S L f

/-- what is read of the files that are read again each time, without what classes load -/
inductive Tree : List Str → List (Str × α) → Prop
  | nil : Tree [] []
  | once {f L m} : re f = false → Tree L m → Tree (f :: L) m
  | again {f L a m1 m2} : re f = true → G f a → Tree (ch a) m1 → Tree L m2 → Tree (f :: L) (m1 ++ (f, a) :: m2)

variable {re G ch}

theorem Walk.append {S : Str → Prop} {L L' : List Str} {E E' : List (Str × α)} {S1 S2 : Str → Prop} (h : Walk re G ch S L E S1)
    (h' : Walk re G ch S1 L' E' S2) : Walk re G ch S (L ++ L') (E ++ E') S2 := by
  induction h with
  | done => exact h'
  | skip h1 h2 _ ih => exact .skip h1 h2 (ih h')
  | read h1 h2 h3 h4 _ _ ih =>
    rw [List.append_assoc, List.cons_append]
    exact .read h1 h2 h3 h4 (ih h')

theorem walk_keys {S : Str → Prop} {L : List Str} {E : List (Str × α)} {S' : Str → Prop} (h : Walk re G ch S L E S') :
    (∀ x, S' x ↔ S x ∨ x ∈ E.map (·.1)) ∧ (∀ f ∈ L, S' f ∧ (re f = true → f ∈ E.map (·.1))) ∧
    (∀ e ∈ E, G e.1 e.2 ∧ ∀ f ∈ ch e.2, S' f ∧ (re f = true → f ∈ E.map (·.1))) := by
  induction h with
  | done => simp
  | @skip S f L E S' h1 h2 _ ih =>
    obtain ⟨i1, i2, i3⟩ := ih
    refine ⟨i1, ?_, i3⟩
    intro x hx
    rcases List.mem_cons.1 hx with rfl | hx
    · exact ⟨(i1 x).2 (.inl h2), by simp [h1]⟩
    · exact i2 x hx
  | @read S f L a K E1 S1 E2 S2 h1 h2 h3 _ _ ih ih' =>
    obtain ⟨i1, i2, i3⟩ := ih
    obtain ⟨j1, j2, j3⟩ := ih'
    have up : ∀ x, S1 x → S2 x := fun x hx => (j1 x).2 (.inl hx)
    refine ⟨?_, ?_, ?_⟩
    · intro x
      rw [j1, i1]
      simp only [List.map_append, List.map_cons, List.mem_append, List.mem_cons]
      tauto
    · intro x hx
      rcases List.mem_cons.1 hx with rfl | hx
      · exact ⟨up _ ((i1 _).2 (.inl (.inr rfl))), by simp⟩
      · exact ⟨(j2 x hx).1, fun hr => by
          have := (j2 x hx).2 hr
          simp only [List.map_append, List.map_cons, List.mem_append, List.mem_cons]
          tauto⟩
    · intro e he
      rcases List.mem_append.1 he with he | he
      · refine ⟨(i3 e he).1, fun x hx => ⟨up _ ((i3 e he).2 x hx).1, fun hr => ?_⟩⟩
        have := ((i3 e he).2 x hx).2 hr
        simp only [List.map_append, List.map_cons, List.mem_append, List.mem_cons]
        tauto
      · rcases List.mem_cons.1 he with rfl | he
        · refine ⟨h2, fun x hx => ?_⟩
          have := i2 x ((h3.1 x).2 hx)
          refine ⟨up _ this.1, fun hr => ?_⟩
          have := this.2 hr
          simp only [List.map_append, List.map_cons, List.mem_append, List.mem_cons]
          tauto
        · refine ⟨(j3 e he).1, fun x hx => ⟨((j3 e he).2 x hx).1, fun hr => ?_⟩⟩
          have := ((j3 e he).2 x hx).2 hr
          simp only [List.map_append, List.map_cons, List.mem_append, List.mem_cons]
          tauto

theorem Gets.lift {S S' : Str → Prop} {L L' : List Str} (hs : ∀ x, S x → S' x)
    (hl : ∀ x ∈ L', (re x = false → ¬ S' x) → Gets re G ch S L x) {x : Str} (h : Gets re G ch S' L' x) : Gets re G ch S L x := by
  induction h with
  | root h1 h2 => exact hl _ h1 h2
  | step _ h2 h3 h4 ih => exact .step ih h2 h3 (fun hr hS => h4 hr (hs _ hS))

theorem walk_reach {S : Str → Prop} {L : List Str} {E : List (Str × α)} {S' : Str → Prop} (h : Walk re G ch S L E S') :
    ∀ e ∈ E, Gets re G ch S L e.1 := by
  induction h with
  | done => simp
  | @skip S f L E S' h1 h2 _ ih =>
    exact fun e he => (ih e he).lift (fun _ h => h) fun x hx hr => .root (List.mem_cons_of_mem _ hx) hr
  | @read S f L a K E1 S1 E2 S2 h1 h2 h3 hw hw' ih ih' =>
    have h0 : Gets re G ch S (f :: L) f := .root (by simp) h1
    intro e he
    rcases List.mem_append.1 he with he | he
    · refine (ih e he).lift (fun _ h => .inl h) fun x hx hr => ?_
      exact .step h0 h2 ((h3.1 x).1 hx) (fun h hS => hr h (.inl hS))
    · rcases List.mem_cons.1 he with rfl | he
      · exact h0
      · have := (walk_keys hw).1
        refine (ih' e he).lift (fun x h => (this x).2 (.inl (.inl h))) fun x hx hr => ?_
        exact .root (List.mem_cons_of_mem _ hx) (fun h hS => hr h ((this x).2 (.inl (.inl hS))))

variable (hG : ∀ f a b, G f a → G f b → a = b)
include hG

theorem reach_walk {S : Str → Prop} {L : List Str} {E : List (Str × α)} {S' : Str → Prop} (h : Walk re G ch S L E S') {x : Str}
    (hx : Gets re G ch S L x) : x ∈ E.map (·.1) := by
  obtain ⟨h1, h2, h3⟩ := walk_keys h
  have key : ∀ y, (re y = false → ¬ S y) → (S' y ∧ (re y = true → y ∈ E.map (·.1))) → y ∈ E.map (·.1) := by
    intro y hy hh
    cases hr : re y with
    | true => exact hh.2 hr
    | false => exact ((h1 y).1 hh.1).resolve_left (hy hr)
  induction hx with
  | root hl hr => exact key _ hr (h2 _ hl)
  | step _ hg hc hr ih =>
    obtain ⟨e, he, rfl⟩ := List.mem_map.1 ih
    have := hG _ _ _ hg (h3 e he).1
    subst this
    exact key _ hr ((h3 e he).2 _ hc)

theorem Tree.unique {L : List Str} {m m' : List (Str × α)} (h : Tree re G ch L m) (h' : Tree re G ch L m') : m = m' := by
  induction h generalizing m' with
  | nil => cases h'; rfl
  | once hr _ ih =>
    cases h' with
    | once _ h => exact ih h
    | again hr' => rw [hr] at hr'; cases hr'
  | again hr hg _ _ ih1 ih2 =>
    cases h' with
    | once hr' => rw [hr] at hr'; cases hr'
    | again _ hg' h1 h2 =>
      have := hG _ _ _ hg hg'
      subst this
      rw [ih1 h1, ih2 h2]

omit hG in
theorem Tree.perm {L L' : List Str} (hp : L.Perm L') {m : List (Str × α)} (h : Tree re G ch L m) : ∃ m', Tree re G ch L' m' ∧ m.Perm m' := by
  induction hp generalizing m with
  | nil => exact ⟨m, h, .refl _⟩
  | cons x _ ih =>
    cases h with
    | once hr h =>
      obtain ⟨m', h1, h2⟩ := ih h
      exact ⟨m', .once hr h1, h2⟩
    | again hr hg h1 h2 =>
      obtain ⟨m', h3, h4⟩ := ih h2
      exact ⟨_, .again hr hg h1 h3, (h4.cons _).append_left _⟩
  | swap x y l =>
    cases h with
    | once hr h =>
      cases h with
      | once hr' h => exact ⟨_, .once hr' (.once hr h), .refl _⟩
      | again hr' hg h1 h2 => exact ⟨_, .again hr' hg h1 (.once hr h2), .refl _⟩
    | again hr hg h1 h =>
      cases h with
      | once hr' h => exact ⟨_, .once hr' (.again hr hg h1 h), .refl _⟩
      | again hr' hg' h1' h =>
        refine ⟨_, .again hr' hg' h1' (.again hr hg h1 h), ?_⟩
        rename_i m1 a a' m2 m3
        have : ∀ (u v w : List (Str × α)) (e e' : Str × α), (u ++ e :: (v ++ e' :: w)).Perm (v ++ e' :: (u ++ e :: w)) := by
          intro u v w e e'
          rw [show u ++ e :: (v ++ e' :: w) = (u ++ [e]) ++ (v ++ [e']) ++ w by simp,
            show v ++ e' :: (u ++ e :: w) = (v ++ [e']) ++ (u ++ [e]) ++ w by simp]
          exact List.perm_append_comm.append_right _
        exact this _ _ _ _ _
  | trans _ _ ih1 ih2 =>
    obtain ⟨m1, h1, p1⟩ := ih1 h
    obtain ⟨m2, h2, p2⟩ := ih2 h1
    exact ⟨m2, h2, p1.trans p2⟩

omit hG in
theorem Tree.to_filter {L : List Str} {m : List (Str × α)} (h : Tree re G ch L m) : Tree re G ch (L.filter re) m := by
  induction h with
  | nil => exact .nil
  | once hr _ ih => rw [List.filter_cons_of_neg (by simp [hr])]; exact ih
  | again hr hg h1 _ _ ih => rw [List.filter_cons_of_pos hr]; exact .again hr hg h1 ih

omit hG in
theorem Tree.of_filter {L : List Str} {m : List (Str × α)} (h : Tree re G ch (L.filter re) m) : Tree re G ch L m := by
  induction L generalizing m with
  | nil => exact h
  | cons f L ih =>
    cases hr : re f with
    | false =>
      rw [List.filter_cons_of_neg (by simp [hr])] at h
      exact .once hr (ih h)
    | true =>
      rw [List.filter_cons_of_pos hr] at h
      cases h with
      | once hr' => rw [hr] at hr'; cases hr'
      | again _ hg h1 h2 => exact .again hr hg h1 (ih h2)

omit hG in
/-- the files read are the trees of what is asked for and of what each class asks for -/
theorem walk_tree {S : Str → Prop} {L : List Str} {E : List (Str × α)} {S' : Str → Prop} (h : Walk re G ch S L E S') :
    ∃ (m : List (Str × α)) (os : List ((Str × α) × List (Str × α))), Tree re G ch L m ∧ E.Perm (m ++ os.flatMap (fun o => o.1 :: o.2)) ∧
      (∀ o ∈ os, re o.1.1 = false ∧ ¬ S o.1.1 ∧ G o.1.1 o.1.2 ∧ Tree re G ch (ch o.1.2) o.2) ∧ (os.map (·.1.1)).Nodup := by
  induction h with
  | done => exact ⟨[], [], .nil, .refl _, by simp, by simp⟩
  | skip h1 h2 _ ih =>
    obtain ⟨m, os, i1, i2⟩ := ih
    exact ⟨m, os, .once h1 i1, i2⟩
  | @read S f L a K E1 S1 E2 S2 h1 h2 h3 hw _ ih ih' =>
    obtain ⟨m1, os1, i1, i2, i3, i4⟩ := ih
    obtain ⟨m2, os2, j1, j2, j3, j4⟩ := ih'
    have hk := (walk_keys hw).1
    have ht : Tree re G ch (ch a) m1 := by
      have := i1.to_filter
      rw [h3.2] at this
      exact this.of_filter
    have hin : ∀ o ∈ os1, S1 o.1.1 := by
      intro o ho
      refine (hk _).2 (.inr (List.mem_map.2 ⟨o.1, ?_, rfl⟩))
      refine i2.mem_iff.2 (List.mem_append.2 (.inr (List.mem_flatMap.2 ⟨o, ho, by simp⟩)))
    have hS : ∀ x, S x → S1 x := fun x hx => (hk x).2 (.inl (.inl hx))
    have hf : S1 f := (hk f).2 (.inl (.inr rfl))
    have nd : ((os1 ++ os2).map (·.1.1)).Nodup := by
      rw [List.map_append, List.nodup_append]
      refine ⟨i4, j4, ?_⟩
      intro x hx y hy e
      obtain ⟨o, ho, rfl⟩ := List.mem_map.1 hx
      obtain ⟨o', ho', rfl⟩ := List.mem_map.1 hy
      exact (j3 o' ho').2.1 (e ▸ hin o ho)
    have all : ∀ o ∈ os1 ++ os2, re o.1.1 = false ∧ ¬ S o.1.1 ∧ G o.1.1 o.1.2 ∧ Tree re G ch (ch o.1.2) o.2 := by
      intro o ho
      rcases List.mem_append.1 ho with ho | ho
      · obtain ⟨q1, q2, q3⟩ := i3 o ho
        exact ⟨q1, fun hs => q2 (.inl hs), q3⟩
      · obtain ⟨q1, q2, q3⟩ := j3 o ho
        exact ⟨q1, fun hs => q2 (hS _ hs), q3⟩
    cases hr : re f with
    | true =>
      refine ⟨m1 ++ (f, a) :: m2, os1 ++ os2, .again hr h2 ht j1, ?_, all, nd⟩
      refine (i2.append (j2.cons _)).trans ?_
      rw [List.flatMap_append]
      generalize os1.flatMap (fun o => o.1 :: o.2) = u
      generalize os2.flatMap (fun o => o.1 :: o.2) = v
      rw [show m1 ++ u ++ (f, a) :: (m2 ++ v) = m1 ++ (u ++ ((f, a) :: m2)) ++ v by simp,
        show m1 ++ (f, a) :: m2 ++ (u ++ v) = m1 ++ (((f, a) :: m2) ++ u) ++ v by simp]
      exact (List.perm_append_comm.append_left _).append_right _
    | false =>
      refine ⟨m2, ((f, a), m1) :: (os1 ++ os2), .once hr j1, ?_, ?_, ?_⟩
      · refine (i2.append (j2.cons _)).trans ?_
        rw [List.flatMap_cons, List.flatMap_append]
        generalize os1.flatMap (fun o => o.1 :: o.2) = u
        generalize os2.flatMap (fun o => o.1 :: o.2) = v
        have e1 : (m1 ++ u ++ (f, a) :: (m2 ++ v)).Perm ((f, a) :: (m1 ++ u) ++ (m2 ++ v)) := by
          rw [List.cons_append]
          exact List.perm_middle
        refine e1.trans ?_
        show (((f, a) :: (m1 ++ u)) ++ (m2 ++ v)).Perm (m2 ++ ((f, a) :: m1 ++ (u ++ v)))
        rw [show ((f, a) :: (m1 ++ u)) ++ (m2 ++ v) = (((f, a) :: m1 ++ u) ++ m2) ++ v by simp,
          show m2 ++ ((f, a) :: m1 ++ (u ++ v)) = (m2 ++ ((f, a) :: m1 ++ u)) ++ v by simp]
        exact List.perm_append_comm.append_right _
      · intro o ho
        rcases List.mem_cons.1 ho with rfl | ho
        · exact ⟨hr, h1 hr, h2, ht⟩
        · exact all o ho
      · rw [List.map_cons, List.nodup_cons]
        refine ⟨?_, nd⟩
        intro hm
        obtain ⟨o, ho, e⟩ := List.mem_map.1 hm
        have e : o.1.1 = f := e
        rcases List.mem_append.1 ho with ho | ho
        · exact (i3 o ho).2.1 (.inr e)
        · exact (j3 o ho).2.1 (e ▸ hf)

/-- **the order does not matter** -/
theorem walk_perm {S : Str → Prop} {L L' : List Str} {E E' : List (Str × α)} {S1 S2 : Str → Prop} (hp : L.Perm L')
    (h : Walk re G ch S L E S1) (h' : Walk re G ch S L' E' S2) : E.Perm E' ∧ ∀ x, S1 x ↔ S2 x := by
  have keys : ∀ {L L' : List Str} {E E' : List (Str × α)} {S1 S2 : Str → Prop}, L.Perm L' → Walk re G ch S L E S1 → Walk re G ch S L' E' S2 →
      ∀ x, x ∈ E.map (·.1) → x ∈ E'.map (·.1) := by
    intro L L' E E' S1 S2 hp h h' x hx
    obtain ⟨e, he, rfl⟩ := List.mem_map.1 hx
    exact reach_walk hG h' ((walk_reach h e he).lift (fun _ h => h) fun y hy hr => .root (hp.mem_iff.1 hy) hr)
  have tops : ∀ {L L' : List Str} {E E' : List (Str × α)} {S1 S2 : Str → Prop} {m m' : List (Str × α)} {os os' : List ((Str × α) × List (Str × α))},
      L.Perm L' → Walk re G ch S L E S1 → Walk re G ch S L' E' S2 → E.Perm (m ++ os.flatMap (fun o => o.1 :: o.2)) →
      E'.Perm (m' ++ os'.flatMap (fun o => o.1 :: o.2)) → Tree re G ch L' m' →
      (∀ o ∈ os, re o.1.1 = false ∧ ¬ S o.1.1 ∧ G o.1.1 o.1.2 ∧ Tree re G ch (ch o.1.2) o.2) →
      (∀ o ∈ os', re o.1.1 = false ∧ ¬ S o.1.1 ∧ G o.1.1 o.1.2 ∧ Tree re G ch (ch o.1.2) o.2) → ∀ o, o ∈ os → o ∈ os' := by
    intro L L' E E' S1 S2 m m' os os' hp h h' pm pm' t' all all' o ho
    obtain ⟨q1, q2, q3, q4⟩ := all o ho
    have hm : o.1.1 ∈ E.map (·.1) := List.mem_map.2 ⟨o.1, pm.mem_iff.2 (List.mem_append.2 (.inr (List.mem_flatMap.2 ⟨o, ho, by simp⟩))), rfl⟩
    obtain ⟨e, he, ek⟩ := List.mem_map.1 (keys hp h h' _ hm)
    have trees : ∀ {L : List Str} {m : List (Str × α)}, Tree re G ch L m → ∀ e ∈ m, re e.1 = true := by
      intro L m ht
      induction ht with
      | nil => simp
      | once _ _ ih => exact ih
      | again hr _ _ _ ih1 ih2 =>
        intro e he
        rcases List.mem_append.1 he with he | he
        · exact ih1 e he
        · rcases List.mem_cons.1 he with rfl | he
          · exact hr
          · exact ih2 e he
    have hre : re e.1 = false := by rw [ek]; exact q1
    rcases List.mem_append.1 (pm'.mem_iff.1 he) with he | he
    · rw [trees t' e he] at hre; cases hre
    · obtain ⟨o', ho', he⟩ := List.mem_flatMap.1 he
      rcases List.mem_cons.1 he with rfl | he
      · obtain ⟨-, -, g1, g2⟩ := all' o' ho'
        rw [ek] at g1
        have e1 := hG _ _ _ g1 q3
        rw [e1] at g2
        have e2 := g2.unique hG q4
        have : o' = o := by
          obtain ⟨⟨a, b⟩, c⟩ := o
          obtain ⟨⟨a', b'⟩, c'⟩ := o'
          simp only at ek e1 e2
          subst ek e1 e2
          rfl
        exact this ▸ ho'
      · rw [trees (all' o' ho').2.2.2 e he] at hre; cases hre
  obtain ⟨m, os, t1, t2, t3, t4⟩ := walk_tree h
  obtain ⟨m', os', u1, u2, u3, u4⟩ := walk_tree h'
  have pm : m.Perm m' := by
    obtain ⟨m2, v1, v2⟩ := t1.perm hp
    rw [u1.unique hG v1]
    exact v2
  have po : os.Perm os' := by
    refine (List.perm_ext_iff_of_nodup (List.Nodup.of_map _ t4) (List.Nodup.of_map _ u4)).2 fun o => ⟨?_, ?_⟩
    · exact tops hp h h' t2 u2 u1 t3 u3 o
    · exact tops hp.symm h' h u2 t2 t1 u3 t3 o
  refine ⟨t2.trans ((pm.append (po.flatMap_right _)).trans u2.symm), fun x => ?_⟩
  rw [(walk_keys h).1, (walk_keys h').1]
  exact or_congr Iff.rfl ⟨keys hp h h' x, keys hp.symm h' h x⟩

end
end Oelint

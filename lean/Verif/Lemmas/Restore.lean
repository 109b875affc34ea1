import Verif.Lemmas.InlineOne
import Verif.Model.Stash
import Verif.Spec.Restore
/-! Putting inline blocks back. -/
set_option linter.unusedSectionVars false
set_option linter.unusedSimpArgs false
namespace Oelint
variable [Uni]
open Spec

theorem blockOf_eq (c : Str) : blockOf c = c!"${" ++ '@' :: (c ++ ['}']) := by simp [blockOf, opening]

theorem render_cons (f : Str → Str) (h c t : Str) (l : List (Str × Str)) :
    render f h ((c, t) :: l) = h ++ (f (blockOf c) ++ render f t l) := by simp [render]

theorem render_nil (f : Str → Str) (h : Str) : render f h [] = h := by simp [render]

theorem render_app (f : Str → Str) (a h : Str) (l : List (Str × Str)) : a ++ render f h l = render f (a ++ h) l := by simp [render]

theorem Spec.PlainParts.tail {h c t : Str} {l : List (Str × Str)} (hp : PlainParts h ((c, t) :: l)) {a : Str} (ha : '@' ∉ a) :
    PlainParts (a ++ t) l :=
  ⟨by simp [ha, (hp.2 _ List.mem_cons_self).2], fun p hm => hp.2 p (List.mem_cons_of_mem _ hm)⟩

/-- a block occurs only where it is written -/
theorem block_infix {c : Str} (hc : ∀ x ∈ c, x ≠ '@' ∧ x ≠ '{' ∧ x ≠ '}') {l : List (Str × Str)} {h : Str} (hp : PlainParts h l)
    (hin : blockOf c <:+: render id h l) : c ∈ l.map (·.1) := by
  induction l generalizing h with
  | nil =>
    exfalso
    rw [render_nil] at hin
    exact hp.1 (hin.subset (by simp [blockOf, opening]))
  | cons p l ih =>
    obtain ⟨c', t⟩ := p
    obtain ⟨u, w, e⟩ := hin
    have hc' := (hp.2 _ List.mem_cons_self).1
    have e' : (u ++ c!"${") ++ '@' :: (c ++ '}' :: w) = (h ++ c!"${") ++ '@' :: (c' ++ '}' :: render id t l) := by
      rw [render_cons] at e
      simpa [blockOf, opening] using e
    by_cases hu : '@' ∈ u
    · obtain ⟨u1, u2, rfl, hu1⟩ := List.eq_append_cons_of_mem hu
      have e2 : u1 ++ '@' :: (u2 ++ (blockOf c ++ w)) = (h ++ c!"${") ++ '@' :: (c' ++ '}' :: render id t l) := by
        rw [← e']; simp [blockOf, opening]
      obtain ⟨-, e3⟩ := append_cons_inj e2 hu1 (by simp [hp.1])
      have hp' : PlainParts ((c' ++ ['}']) ++ t) l := hp.tail (by
        intro hm; simp at hm; exact (hc' _ hm).1 rfl)
      have := ih hp' ⟨u2, w, by rw [← render_app]; simpa using e3⟩
      simp at this ⊢
      exact Or.inr this
    · obtain ⟨-, e2⟩ := append_cons_inj e' (by simp [hu]) (by simp [hp.1])
      obtain ⟨rfl, -⟩ := append_cons_inj e2 (fun hm => (hc _ hm).2.2 rfl) (fun hm => (hc' _ hm).2.2 rfl)
      simp

/-- the text before the first `@` -/
theorem first_at {a h r r' : Str} (e : h ++ (c!"${" ++ '@' :: r) = a ++ (c!"${" ++ '@' :: r')) (hh : '@' ∉ h)
    (hmin : ∀ j < a.length, ¬ c!"${@" <+: (a ++ (c!"${" ++ '@' :: r')).drop j) : a = h ∧ r' = r := by
  have hle : a.length ≤ h.length := by
    by_contra hlt
    refine hmin h.length (by omega) ?_
    rw [← e, List.drop_left]
    exact ⟨r, by simp⟩
  have ha : '@' ∉ a ++ c!"${" := by
    have : a <+: h := by
      refine List.prefix_of_prefix_length_le (l₃ := h ++ (c!"${" ++ '@' :: r)) ?_ (List.prefix_append _ _) hle
      rw [e]; exact List.prefix_append _ _
    intro hm
    simp at hm
    exact hh (this.subset hm)
  have e' : (a ++ c!"${") ++ '@' :: r' = (h ++ c!"${") ++ '@' :: r := by simpa using e.symm
  obtain ⟨e1, e2⟩ := append_cons_inj e' ha (by simp [hh])
  exact ⟨List.append_cancel_right e1, e2⟩

theorem replaced_block {h c v rest s' : Str} (hh : '@' ∉ h) (hrest : ¬ blockOf c <:+: rest)
    (hr : Replaced (blockOf c) v (h ++ (blockOf c ++ rest)) s') : s' = h ++ (v ++ rest) := by
  generalize hs : h ++ (blockOf c ++ rest) = s at hr
  cases hr with
  | none hno => exact absurd ⟨h, rest, by rw [← hs]; simp⟩ hno
  | @some a b b' hmin hb =>
    have e : h ++ (c!"${" ++ '@' :: (c ++ '}' :: rest)) = a ++ (c!"${" ++ '@' :: (c ++ '}' :: b)) := by
      simpa [blockOf, opening] using hs
    have hle : a.length ≤ h.length := by
      by_contra hlt
      refine hmin h.length (by omega) ?_
      rw [← hs, List.drop_left]
      exact List.prefix_append _ _
    have hpre : a <+: h := by
      refine List.prefix_of_prefix_length_le (l₃ := h ++ (blockOf c ++ rest)) ?_ (List.prefix_append _ _) hle
      rw [hs]; exact List.prefix_append _ _
    have e' : (a ++ c!"${") ++ '@' :: (c ++ '}' :: b) = (h ++ c!"${") ++ '@' :: (c ++ '}' :: rest) := by simpa using e.symm
    obtain ⟨e1, e2⟩ := append_cons_inj e' (by intro hm; simp at hm; exact hh (hpre.subset hm)) (by simp [hh])
    have e1 := List.append_cancel_right e1
    have e2 : b = rest := by simpa using e2
    subst e1; subst e2
    cases hb with
    | none _ => rfl
    | @some x y y' _ _ => exact absurd ⟨x, y, by simp⟩ hrest

/-- forward: each block is replaced by its value -/
theorem substituted_render {value : Str → Str} {l : List (Str × Str)} {h out : Str} {bs : List (Str × Str)} (hp : PlainParts h l)
    (hnd : (l.map (·.1)).Nodup) (hv : (∀ b ∈ bs, '@' ∉ b.2) ∨ ∀ p ∈ l, '@' ∉ value (blockOf p.1)) (hs : Substituted value (render id h l) bs out) :
    bs = l.map (fun p => (blockOf p.1, value (blockOf p.1))) ∧ out = render value h l := by
  induction l generalizing h bs with
  | nil =>
    rw [render_nil] at hs
    obtain ⟨rfl, rfl⟩ := substituted_of_no_opening hs (fun hin => hp.1 (hin.subset (by simp [opening])))
    exact ⟨rfl, (render_nil _ _).symm⟩
  | cons p l ih =>
    obtain ⟨c, t⟩ := p
    have hc := (hp.2 _ List.mem_cons_self).1
    rw [render_cons] at hs
    generalize hse : h ++ (id (blockOf c) ++ render id t l) = s at hs
    cases hs with
    | done hno => exact absurd ⟨h, c ++ ['}'] ++ render id t l, by rw [← hse]; simp [blockOf]⟩ hno
    | @step _ s' blk _ bs' hf hr hrest =>
      obtain ⟨a, q, r, e, hmin, hsc, rfl⟩ := hf
      have e' : h ++ (c!"${" ++ '@' :: (c ++ '}' :: render id t l)) = a ++ (c!"${" ++ '@' :: r) := by
        rw [e] at hse
        simpa [blockOf, opening] using hse
      have hmin' : ∀ j < a.length, ¬ c!"${@" <+: (a ++ (c!"${" ++ '@' :: r)).drop j := by
        intro j hj
        have := hmin j hj
        rw [e] at this
        exact this
      obtain ⟨rfl, rfl⟩ := first_at e' hp.1 hmin'
      have := isScope_plain (fun hm => (hc _ hm).2.1 rfl) (fun hm => (hc _ hm).2.2 rfl) hsc
      subst this
      have eb : opening ++ (c ++ ['}']) = blockOf c := by simp [blockOf]
      rw [eb] at hr hv ⊢
      have hvc : '@' ∉ value (blockOf c) := hv.elim (fun hv => hv _ List.mem_cons_self) (fun hv => hv _ List.mem_cons_self)
      have hno : ¬ blockOf c <:+: render id t l := by
        intro hin
        have := block_infix hc (h := t) ⟨(hp.2 _ List.mem_cons_self).2, fun p hm => hp.2 p (List.mem_cons_of_mem _ hm)⟩ hin
        exact (List.nodup_cons.1 hnd).1 this
      rw [← hse] at hr
      have := replaced_block hp.1 hno hr
      subst this
      rw [render_app, render_app] at hrest
      have hp' : PlainParts (a ++ (value (blockOf c) ++ t)) l := by
        have := hp.tail (a := a ++ value (blockOf c)) (by
          intro hm
          rcases List.mem_append.1 hm with hm | hm
          · exact hp.1 hm
          · exact hvc hm)
        simpa using this
      obtain ⟨rfl, rfl⟩ := ih hp' (List.nodup_cons.1 hnd).2 (hv.imp (fun hv b hm => hv b (List.mem_cons_of_mem _ hm)) (fun hv b hm => hv b (List.mem_cons_of_mem _ hm))) hrest
      refine ⟨rfl, ?_⟩
      rw [render_cons, render_app, render_app]

theorem replaceFirst_first {old new a b : Str} (hne : old ≠ []) (hmin : ∀ j < a.length, ¬ old <+: (a ++ (old ++ b)).drop j) :
    replaceFirst old new (a ++ (old ++ b)) = a ++ (new ++ b) := by
  unfold replaceFirst
  rw [if_neg (by simpa using hne)]
  induction a with
  | nil =>
    cases old with
    | nil => exact absurd rfl hne
    | cons c o =>
      simp only [List.nil_append, List.cons_append]
      rw [replaceFirstGo, if_pos (by rw [List.isPrefixOf_iff_prefix, ← List.cons_append]; exact List.prefix_append _ _)]
      simp
  | cons x a ih =>
    rw [List.cons_append, replaceFirstGo, if_neg]
    · rw [ih (fun j hj => by have := hmin (j + 1) (by simpa using hj); simpa using this)]
      rfl
    · rw [List.isPrefixOf_iff_prefix]
      have := hmin 0 (by simp)
      simpa using this

/-- backward: the blocks are put back -/
theorem restore_render {f : Str → Str} {l : List (Str × Str)} {h : Str} (hu : Unambiguous f h l) :
    (l.map (fun p => (blockOf p.1, f (blockOf p.1)))).foldl (fun res (b : Str × Str) => replaceFirst b.2 b.1 res) (render f h l)
      = render id h l := by
  induction l generalizing h with
  | nil => simp [render]
  | cons p l ih =>
    obtain ⟨c, t⟩ := p
    obtain ⟨h1, h2, h3⟩ := hu
    rw [List.map_cons, List.foldl_cons]
    rw [render_cons] at h2 ⊢
    simp only
    rw [replaceFirst_first h1 h2, render_app, render_app, ih h3, render_cons, render_app, render_app]
    rfl

/-- a mark that occurs nowhere else -/
theorem unambiguous_mark {f : Str → Str} {m : Char} {l : List (Str × Str)} {h : Str} (hm : m ≠ '$' ∧ m ≠ '{' ∧ m ≠ '@' ∧ m ≠ '}')
    (hf : ∀ p ∈ l, ∃ t, f (blockOf p.1) = m :: t) (hh : m ∉ h) (hl : ∀ p ∈ l, m ∉ p.1 ∧ m ∉ p.2) : Unambiguous f h l := by
  induction l generalizing h with
  | nil => exact trivial
  | cons p l ih =>
    obtain ⟨c, t⟩ := p
    obtain ⟨u, hu⟩ := hf _ List.mem_cons_self
    have hct := hl _ List.mem_cons_self
    refine ⟨by rw [hu]; simp, fun j hj hpre => ?_, ih (fun p hp => hf p (List.mem_cons_of_mem _ hp)) ?_
      (fun p hp => hl p (List.mem_cons_of_mem _ hp))⟩
    · rw [hu, render_cons, List.drop_append_of_le_length (by omega)] at hpre
      cases hd : h.drop j with
      | nil => rw [List.drop_eq_nil_iff] at hd; omega
      | cons x y =>
        rw [hd] at hpre
        obtain ⟨z, hz⟩ := hpre
        simp at hz
        refine hh (List.mem_of_mem_drop (i := j) ?_)
        rw [hd, ← hz.1]
        simp
    · simp [blockOf, opening, hh, hct.1, hct.2, hm]

/-- append a text to the last part -/
def appendLast (post : Str) : List (Str × Str) → List (Str × Str)
  | [] => []
  | [(c, t)] => [(c, t ++ post)]
  | p :: q :: l => p :: appendLast post (q :: l)

theorem render_appendLast (f : Str → Str) (post : Str) {l : List (Str × Str)} (hl : l ≠ []) (h : Str) :
    render f h (appendLast post l) = render f h l ++ post := by
  induction l generalizing h with
  | nil => exact absurd rfl hl
  | cons p l ih =>
    obtain ⟨c, t⟩ := p
    cases l with
    | nil => simp [appendLast, render]
    | cons q l =>
      rw [appendLast, render_cons, render_cons, ih (by simp)]
      simp

theorem appendLast_codes (post : Str) (l : List (Str × Str)) : (appendLast post l).map (·.1) = l.map (·.1) := by
  induction l with
  | nil => rfl
  | cons p l ih =>
    obtain ⟨c, t⟩ := p
    cases l with
    | nil => rfl
    | cons q l => rw [appendLast, List.map_cons, ih]; rfl

theorem plainParts_appendLast {pre h post : Str} {l : List (Str × Str)} (hp : PlainParts h l) (h1 : '@' ∉ pre) (h2 : '@' ∉ post) :
    PlainParts (pre ++ h) (appendLast post l) := by
  refine ⟨by simp [h1, hp.1], ?_⟩
  have h3 := hp.2
  clear hp
  induction l with
  | nil => simp [appendLast]
  | cons p l ih =>
    obtain ⟨c, t⟩ := p
    cases l with
    | nil =>
      intro p hm
      simp [appendLast] at hm
      subst hm
      have := h3 _ List.mem_cons_self
      exact ⟨this.1, by simp [this.2, h2]⟩
    | cons q l =>
      intro p hm
      rw [appendLast] at hm
      rcases List.mem_cons.1 hm with rfl | hm
      · exact h3 _ List.mem_cons_self
      · exact ih (fun p hp => h3 p (List.mem_cons_of_mem _ hp)) p hm

/-- forward within a statement: text before and behind the value -/
theorem substituted_value_part {value : Str → Str} {l : List (Str × Str)} {pre h post out : Str} {bs : List (Str × Str)} (hl : l ≠ [])
    (hp : PlainParts h l) (h1 : '@' ∉ pre) (h2 : '@' ∉ post) (hnd : (l.map (·.1)).Nodup) (hv : (∀ b ∈ bs, '@' ∉ b.2) ∨ ∀ p ∈ l, '@' ∉ value (blockOf p.1))
    (hs : Substituted value (pre ++ render id h l ++ post) bs out) :
    bs = l.map (fun p => (blockOf p.1, value (blockOf p.1))) ∧ out = pre ++ render value h l ++ post := by
  have e : ∀ f, pre ++ render f h l ++ post = render f (pre ++ h) (appendLast post l) := by
    intro f
    rw [render_appendLast f post hl, render_app]
  rw [e] at hs
  obtain ⟨e1, e2⟩ := substituted_render (plainParts_appendLast hp h1 h2) (by rw [appendLast_codes]; exact hnd)
    (hv.imp id (fun hv p hpm => by
      have : p.1 ∈ (appendLast post l).map (·.1) := List.mem_map.2 ⟨p, hpm, rfl⟩
      rw [appendLast_codes] at this
      obtain ⟨q, hq, hqe⟩ := List.mem_map.1 this
      rw [← hqe]
      exact hv q hq)) hs
  rw [e, e2]
  refine ⟨?_, rfl⟩
  rw [e1]
  have := congrArg (List.map (fun c => (blockOf c, value (blockOf c)))) (appendLast_codes post l)
  rw [List.map_map, List.map_map] at this
  exact this

theorem dget_blocks {f : Str → Str} {l : List (Str × Str)} {p : Str × Str} (hp : p ∈ l) :
    dget (blockOf p.1) (l.map (fun p => (blockOf p.1, f (blockOf p.1)))) = some (f (blockOf p.1)) := by
  induction l with
  | nil => cases hp
  | cons q l ih =>
    rw [List.map_cons, dget]
    by_cases hq : blockOf q.1 = blockOf p.1
    · simp [hq]
    · rcases List.mem_cons.1 hp with rfl | hp
      · exact absurd rfl hq
      · simp only [beq_iff_eq, hq, if_false]
        exact ih hp

theorem unambiguous_congr {f g : Str → Str} {l : List (Str × Str)} (hfg : ∀ p ∈ l, f (blockOf p.1) = g (blockOf p.1)) {h : Str}
    (hu : Unambiguous f h l) : Unambiguous g h l := by
  have hr : ∀ (l : List (Str × Str)), (∀ p ∈ l, f (blockOf p.1) = g (blockOf p.1)) → ∀ h, render f h l = render g h l := by
    intro l hl h
    unfold render
    congr 1
    induction l with
    | nil => rfl
    | cons p l ih => rw [List.flatMap_cons, List.flatMap_cons, hl p List.mem_cons_self, ih (fun q hq => hl q (List.mem_cons_of_mem _ hq))]
  induction l generalizing h with
  | nil => exact trivial
  | cons p l ih =>
    obtain ⟨c, t⟩ := p
    obtain ⟨h1, h2, h3⟩ := hu
    have hc : f (blockOf c) = g (blockOf c) := hfg (c, t) List.mem_cons_self
    refine ⟨hc ▸ h1, ?_, ih (fun q hq => hfg q (List.mem_cons_of_mem _ hq)) h3⟩
    rw [← hr _ hfg, ← hc]
    exact h2

theorem render_congr {f g : Str → Str} {h : Str} {l : List (Str × Str)} (hfg : ∀ p ∈ l, f (blockOf p.1) = g (blockOf p.1)) :
    render f h l = render g h l := by
  unfold render
  congr 1
  induction l with
  | nil => rfl
  | cons p l ih =>
    rw [List.flatMap_cons, List.flatMap_cons, hfg p List.mem_cons_self, ih (fun q hq => hfg q (List.mem_cons_of_mem _ hq))]

end Oelint

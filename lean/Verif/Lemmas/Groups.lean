import Verif.Lemmas.Chunks
/-! The chunking loops compute the groups of the specification. -/
set_option linter.unusedSectionVars false
set_option linter.unusedSimpArgs false
namespace Oelint
variable [Uni]
open Spec

/-! ## the loops on decomposed input -/

theorem contLoop_all {ls : List Str} (h : ∀ l ∈ ls, isCont l = true) : contLoop ls = .error .stopIteration := by
  induction ls with
  | nil => rfl
  | cons l ls ih =>
    rw [contLoop, if_pos (h l (by simp)), ih (fun x hx => h x (by simp [hx]))]; rfl

theorem contLoop_eq {init : List Str} {last : Str} {r : List Str} (h : ∀ l ∈ init, isCont l = true)
    (hl : isCont last = false) : contLoop (init ++ last :: r) = .ok ((init ++ [last]).flatten, r) := by
  induction init with
  | nil => rw [List.nil_append, contLoop, if_neg (by simp [hl])]; simp
  | cons l ls ih =>
    rw [List.cons_append, contLoop, if_pos (h l (by simp)), ih (fun x hx => h x (by simp [hx]))]
    simp [Except.map]

theorem cont_split (ls : List Str) :
    (∀ l ∈ ls, isCont l = true) ∨
      ∃ init last r, ls = init ++ last :: r ∧ (∀ l ∈ init, isCont l = true) ∧ isCont last = false := by
  induction ls with
  | nil => left; simp
  | cons l ls ih =>
    by_cases h : isCont l = true
    · rcases ih with ih | ⟨init, last, r, rfl, h1, h2⟩
      · left; simpa using ⟨h, ih⟩
      · right; exact ⟨l :: init, last, r, by simp, by simpa using ⟨h, h1⟩, h2⟩
    · right; exact ⟨[], l, ls, by simp, by simp, by simpa using h⟩

theorem excess_nil : excess [] = 0 := by simp [excess]

theorem excess_cons (l : Str) (ls : List Str) :
    excess (l :: ls) = (countC '}' l : Int) - countC '{' l + excess ls := by
  simp [excess, countC, List.count_append]; omega

theorem funcLoop_eq {body rest : List Str} {level : Int} (h0 : 0 ≤ level)
    (h1 : ∀ p, p <+: body → p ≠ body → excess p ≤ level) (h2 : level < excess body ∨ rest = []) :
    funcLoop level (body ++ rest) = (body.flatten, rest) := by
  induction body generalizing level with
  | nil =>
    rcases h2 with h2 | rfl
    · rw [excess_nil] at h2; omega
    · rfl
  | cons l ls ih =>
    rw [List.cons_append, funcLoop]
    simp only
    split
    · rename_i hlt
      -- the function ends here
      have hls : ls = [] := by
        by_contra hne
        have := h1 [l] ⟨ls, rfl⟩ (by simpa using Ne.symm hne)
        rw [excess_cons, excess_nil] at this; omega
      subst hls; simp
    · rename_i hge
      rw [ih (by omega)]
      · simp
      · intro p hp hne
        have := h1 (l :: p) (by simpa using hp) (by simpa using hne)
        rw [excess_cons] at this; omega
      · rcases h2 with h2 | h2
        · left; rw [excess_cons] at h2; omega
        · right; exact h2

theorem func_split (ls : List Str) (hne : ls ≠ []) (level : Int) (h0 : 0 ≤ level) :
    ∃ body rest, ls = body ++ rest ∧ body ≠ [] ∧ (∀ p, p <+: body → p ≠ body → excess p ≤ level) ∧
      (level < excess body ∨ rest = []) := by
  induction ls generalizing level with
  | nil => exact absurd rfl hne
  | cons l ls ih =>
    by_cases hc : level < excess [l]
    · refine ⟨[l], ls, rfl, by simp, ?_, Or.inl hc⟩
      intro p hp hpne
      have : p = [] := by
        rcases hp with ⟨t, ht⟩
        cases p with
        | nil => rfl
        | cons a b =>
          simp at ht
          obtain ⟨rfl, rfl, _⟩ := ht
          exact absurd rfl hpne
      subst this; rw [excess_nil]; exact h0
    · rw [excess_cons, excess_nil] at hc
      by_cases hls : ls = []
      · subst hls
        refine ⟨[l], [], rfl, by simp, ?_, Or.inr rfl⟩
        intro p hp hpne
        have : p = [] := by
          rcases hp with ⟨t, ht⟩
          cases p with
          | nil => rfl
          | cons a b =>
            simp at ht
            obtain ⟨rfl, rfl, _⟩ := ht
            exact absurd rfl hpne
        subst this; rw [excess_nil]; exact h0
      · obtain ⟨body, rest, rfl, hb, h1, h2⟩ := ih hls (level - ((countC '}' l : Int) - countC '{' l)) (by omega)
        refine ⟨l :: body, rest, rfl, by simp, ?_, ?_⟩
        · intro p hp hpne
          cases p with
          | nil => rw [excess_nil]; exact h0
          | cons a q =>
            rw [List.cons_prefix_cons] at hp
            obtain ⟨rfl, hp⟩ := hp
            have := h1 q hp (by rintro rfl; exact hpne rfl)
            rw [excess_cons]; omega
        · rcases h2 with h2 | h2
          · left; rw [excess_cons]; omega
          · right; exact h2

theorem commentLoop_eq {t rest : List Str} (h : ∀ l ∈ t, isCommentLine l = true)
    (hr : ∀ l ∈ rest.head?, isCommentLine l = false) :
    commentLoop (t ++ rest) = (t.flatten, rest.headD [], rest.tail) := by
  induction t with
  | nil =>
    cases rest with
    | nil => rfl
    | cons l ls => rw [List.nil_append, commentLoop, if_neg (by simp [hr l (by simp)])]; rfl
  | cons l ls ih =>
    rw [List.cons_append, commentLoop, if_pos (h l (by simp)), ih (fun x hx => h x (by simp [hx]))]
    simp

theorem span_split (p : Str → Bool) (ls : List Str) :
    ∃ t rest, ls = t ++ rest ∧ (∀ l ∈ t, p l = true) ∧ ∀ l ∈ rest.head?, p l = false := by
  induction ls with
  | nil => exact ⟨[], [], rfl, by simp, by simp⟩
  | cons l ls ih =>
    by_cases h : p l = true
    · obtain ⟨t, rest, rfl, h1, h2⟩ := ih
      exact ⟨l :: t, rest, rfl, by simpa using ⟨h, h1⟩, h2⟩
    · exact ⟨[], l :: ls, rfl, by simp, by simpa using h⟩

theorem defLoop_eq {t rest : List Str} (h : ∀ l ∈ t, isValidName l = false)
    (hr : ∀ l ∈ rest.head?, isValidName l = true) :
    defLoop (t ++ rest) = (t.flatten, rest.headD [], rest.tail) := by
  induction t with
  | nil =>
    cases rest with
    | nil => rfl
    | cons l ls => rw [List.nil_append, defLoop, if_pos (hr l (by simp))]; rfl
  | cons l ls ih =>
    have hd : startsWith c!"def " l = false := by
      cases hs : startsWith c!"def " l with
      | false => rfl
      | true =>
        exfalso
        unfold startsWith at hs
        rw [List.isPrefixOf_iff_prefix] at hs
        obtain ⟨t, rfl⟩ := hs
        have h1 := h _ (List.mem_cons_self)
        have h2 : isValidName (c!"def " ++ t) = true := by
          rw [isValidName_iff]
          exact ⟨'d', _, rfl, by decide⟩
        rw [h1] at h2; cases h2
    rw [List.cons_append, defLoop, if_neg (by simp [h l (by simp)]), if_neg (by simp [hd]),
      ih (fun x hx => h x (by simp [hx]))]
    simp

/-! ## one step -/

/-- the lines that remain when `nx` was handed back -/
def pushBack (nx : Str) (rest : List Str) : List Str := if nx.isEmpty then rest else nx :: rest

theorem pushBack_headD {rest : List Str} (h : ∀ l ∈ rest, IsLine l) : pushBack (rest.headD []) rest.tail = rest := by
  cases rest with
  | nil => rfl
  | cons l ls =>
    have := (h l (by simp)).1
    simp [pushBack, this]

/-- A group of the specification is what the subparser reads. -/
theorem iterate_of_group {g rest : List Str} (hl : ∀ l ∈ g ++ rest, IsLine l) (hg : IsGroup g rest) :
    ∃ b bs nx r, g ++ rest = b :: bs ∧ iterate b bs = .ok (g.flatten, nx, r) ∧ pushBack nx r = rest := by
  have hlr : ∀ l ∈ rest, IsLine l := fun l h => hl l (by simp [h])
  rcases hg with ⟨init, last, rfl, hne, h1, h2⟩ | ⟨h, body, rfl, hb, hc, hf, h1, h2⟩ |
    ⟨h, t, rfl, hc, hf, hcm, h1, h2⟩ | ⟨h, t, rfl, hc, hf, hcm, hd, h1, h2⟩ | ⟨h, rfl, hc, hf, hcm, hd⟩
  · cases init with
    | nil => exact absurd rfl hne
    | cons b init =>
      have hb : isCont b = true := (isCont_iff (hl b (by simp))).2 (h1 b (by simp))
      have hi : ∀ l ∈ init, isCont l = true := fun l hh => (isCont_iff (hl l (by simp [hh]))).2 (h1 l (by simp [hh]))
      have hlast : isCont last = false := by
        cases hh : isCont last with
        | false => rfl
        | true => exact absurd ((isCont_iff (hl last (by simp))).1 hh) h2
      refine ⟨b, init ++ last :: rest, [], rest, by simp, ?_, by simp [pushBack]⟩
      unfold iterate
      rw [if_pos hb, contLoop_eq hi hlast]
      simp [Except.map]
  all_goals
    have hh := hl h (by simp)
    have hc' : isCont h = false := by
      cases hx : isCont h with
      | false => rfl
      | true => exact absurd ((isCont_iff hh).1 hx) hc
  · have hf' := (isFuncStart_iff hh).2 hf
    refine ⟨h, body ++ rest, [], rest, by simp, ?_, by simp [pushBack]⟩
    unfold iterate
    rw [if_neg (by simp [hc']), if_pos hf']
    have : funcRead (body ++ rest) = .ok (body.flatten, rest) := by
      cases body with
      | nil => exact absurd rfl hb
      | cons x xs =>
        rw [List.cons_append, funcRead, ← List.cons_append, funcLoop_eq (by omega) h1 h2]
        simp
    rw [this]
    simp [Except.map]
  all_goals
    have hf' : isFuncStart h = false := by
      cases hx : isFuncStart h with
      | false => rfl
      | true => exact absurd ((isFuncStart_iff hh).1 hx) hf
  · have hcm' := isCommentLine_iff.2 hcm
    refine ⟨h, t ++ rest, rest.headD [], rest.tail, by simp, ?_, pushBack_headD hlr⟩
    unfold iterate
    rw [if_neg (by simp [hc']), if_neg (by simp [hf']), if_pos hcm',
      commentLoop_eq (fun l hh => isCommentLine_iff.2 (h1 l hh))]
    · simp
    · intro l hx
      cases hy : isCommentLine l with
      | false => rfl
      | true => exact absurd (isCommentLine_iff.1 hy) (h2 l hx)
  all_goals
    have hcm' : isCommentLine h = false := by
      cases hx : isCommentLine h with
      | false => rfl
      | true => exact absurd (isCommentLine_iff.1 hx) hcm
  · have hd' := isDefStart_iff.2 hd
    refine ⟨h, t ++ rest, rest.headD [], rest.tail, by simp, ?_, pushBack_headD hlr⟩
    unfold iterate
    rw [if_neg (by simp [hc']), if_neg (by simp [hf']), if_neg (by simp [hcm']), if_pos hd', defLoop_eq]
    · simp
    · intro l hx
      cases hy : isValidName l with
      | false => rfl
      | true => exact absurd (isValidName_iff.1 hy) (h1 l hx)
    · intro l hx; exact isValidName_iff.2 (h2 l hx)
  · have hd' : isDefStart h = false := by
      cases hx : isDefStart h with
      | false => rfl
      | true => exact absurd (isDefStart_iff.1 hx) hd
    refine ⟨h, rest, [], rest, by simp, ?_, by simp [pushBack]⟩
    unfold iterate
    rw [if_neg (by simp [hc']), if_neg (by simp [hf']), if_neg (by simp [hcm']), if_neg (by simp [hd']),
      if_neg (by simpa using hh.1)]
    simp

/-- Either the lines start with a group, or they are all continued, or there is only a function header left. -/
theorem group_split (b : Str) (bs : List Str) (hl : ∀ l ∈ b :: bs, IsLine l) :
    (∃ g rest, b :: bs = g ++ rest ∧ IsGroup g rest) ∨
    ((∀ l ∈ b :: bs, Continued l) ∧ iterate b bs = .error .stopIteration) ∨
    (bs = [] ∧ ¬ Continued b ∧ FuncHeader b ∧ iterate b bs = .error .stopIteration) := by
  have hlb := hl b (by simp)
  have hlbs : ∀ l ∈ bs, IsLine l := fun l h => hl l (by simp [h])
  by_cases hc : isCont b = true
  · rcases cont_split bs with hall | ⟨init, last, r, rfl, h1, h2⟩
    · right; left
      refine ⟨?_, ?_⟩
      · intro l hh
        rcases List.mem_cons.1 hh with rfl | hh
        · exact (isCont_iff hlb).1 hc
        · exact (isCont_iff (hlbs l hh)).1 (hall l hh)
      · unfold iterate; rw [if_pos hc, contLoop_all hall]; rfl
    · left
      refine ⟨b :: init ++ [last], r, by simp, Or.inl ⟨b :: init, last, rfl, by simp, ?_, ?_⟩⟩
      · intro l hh
        rcases List.mem_cons.1 hh with rfl | hh
        · exact (isCont_iff hlb).1 hc
        · exact (isCont_iff (hlbs l (by simp [hh]))).1 (h1 l hh)
      · rw [← isCont_iff (hlbs last (by simp))]; simp [h2]
  have hcn : ¬ Continued b := fun h => hc ((isCont_iff hlb).2 h)
  by_cases hf : isFuncStart b = true
  · by_cases hbs : bs = []
    · right; right
      subst hbs
      refine ⟨rfl, hcn, (isFuncStart_iff hlb).1 hf, ?_⟩
      unfold iterate; rw [if_neg hc, if_pos hf]; rfl
    · left
      obtain ⟨body, rest, rfl, hb, h1, h2⟩ := func_split bs hbs 0 (by omega)
      exact ⟨b :: body, rest, by simp, Or.inr (Or.inl ⟨b, body, rfl, hb, hcn, (isFuncStart_iff hlb).1 hf, h1, h2⟩)⟩
  have hfn : ¬ FuncHeader b := fun h => hf ((isFuncStart_iff hlb).2 h)
  left
  by_cases hcm : isCommentLine b = true
  · obtain ⟨t, rest, rfl, h1, h2⟩ := span_split isCommentLine bs
    refine ⟨b :: t, rest, by simp, Or.inr (Or.inr (Or.inl ⟨b, t, rfl, hcn, hfn, isCommentLine_iff.1 hcm,
      fun l h => isCommentLine_iff.1 (h1 l h), ?_⟩))⟩
    intro l hh; rw [← isCommentLine_iff]; simp [h2 l hh]
  have hcmn : ¬ CommentLine b := fun h => hcm (isCommentLine_iff.2 h)
  by_cases hd : isDefStart b = true
  · obtain ⟨t, rest, rfl, h1, h2⟩ := span_split (fun l => !isValidName l) bs
    refine ⟨b :: t, rest, by simp, Or.inr (Or.inr (Or.inr (Or.inl ⟨b, t, rfl, hcn, hfn, hcmn, isDefStart_iff.1 hd,
      ?_, ?_⟩)))⟩
    · intro l hh; rw [← isValidName_iff]; simpa using h1 l hh
    · intro l hh; rw [← isValidName_iff]; simpa using h2 l hh
  · exact ⟨[b], bs, rfl, Or.inr (Or.inr (Or.inr (Or.inr ⟨b, rfl, hcn, hfn, hcmn, fun h => hd (isDefStart_iff.2 h)⟩)))⟩

theorem isGroup_ne_nil {g rest : List Str} (h : IsGroup g rest) : g ≠ [] := by
  rcases h with ⟨init, last, rfl, _⟩ | ⟨h, body, rfl, _⟩ | ⟨h, t, rfl, _⟩ | ⟨h, t, rfl, _⟩ | ⟨h, rfl, _⟩ <;> simp

/-! ## the whole file -/

/-- what `chunkLoop` makes of the groups: line numbers are counted by newlines -/
def chunksFrom (lineOffset : Int) (neg : Bool) : Nat → List (List Str) → List Chunk
  | _, [] => []
  | num, g :: gs => mkChunk lineOffset num neg g.flatten :: chunksFrom lineOffset neg (num + countC '\n' g.flatten) gs

/-- the loop on a list of lines -/
def chunkLines (lineOffset : Int) (neg : Bool) (fuel num : Nat) : List Str → Except PyErr (List Chunk)
  | [] => .ok []
  | l :: ls => chunkLoop lineOffset neg fuel num l ls

theorem chunkLoop_step {lineOffset : Int} {neg : Bool} {fuel num : Nat} {b : Str} {bs : List Str} {text nx : Str}
    {r : List Str} (h : iterate b bs = .ok (text, nx, r)) :
    chunkLoop lineOffset neg (fuel + 1) num b bs =
      (chunkLines lineOffset neg fuel (num + countC '\n' text) (pushBack nx r)).map
        (mkChunk lineOffset num neg text :: ·) := by
  rw [chunkLoop, subparser, h]
  simp only [pushBack]
  split
  · cases r with
    | nil => rfl
    | cons l ls => rfl
  · rfl

theorem chunkLoop_step_error {lineOffset : Int} {neg : Bool} {fuel num : Nat} {b : Str} {bs : List Str} {e : PyErr}
    (h : iterate b bs = .error e) : chunkLoop lineOffset neg (fuel + 1) num b bs = .error e := by
  rw [chunkLoop, subparser, h]

/-- Groups of the specification give the result of the loop. -/
theorem chunkLines_of_groups {lineOffset : Int} {neg : Bool} {ls : List Str} {gs : List (List Str)}
    (hg : Groups ls gs) (hl : ∀ l ∈ ls, IsLine l) (fuel num : Nat) (hf : ls.length ≤ fuel) :
    chunkLines lineOffset neg fuel num ls = .ok (chunksFrom lineOffset neg num gs) := by
  induction hg generalizing fuel num with
  | nil => rfl
  | @cons g rest gs hgr hgs ih =>
    obtain ⟨b, bs, nx, r, he, hi, hp⟩ := iterate_of_group hl hgr
    have hgl : 0 < g.length := by
      have := isGroup_ne_nil hgr
      cases g with
      | nil => exact absurd rfl this
      | cons _ _ => simp
    rw [List.length_append] at hf
    cases fuel with
    | zero => omega
    | succ fuel =>
      rw [he, chunkLines, chunkLoop_step hi, hp, ih (fun l h => hl l (by simp [h])) fuel _ (by omega)]
      rfl

/-- Without groups the loop stops with `StopIteration`, and the reason is visible in the last line. -/
theorem groups_or_error {ls : List Str} (hl : ∀ l ∈ ls, IsLine l) :
    (∃ gs, Groups ls gs) ∨
    ((∀ (lineOffset : Int) (neg : Bool) (fuel num : Nat), ls.length ≤ fuel →
        chunkLines lineOffset neg fuel num ls = .error .stopIteration) ∧
      ∃ last ∈ ls.getLast?, Continued last ∨ FuncHeader last) := by
  obtain ⟨n, hn⟩ : ∃ n, n = ls.length := ⟨_, rfl⟩
  induction n using Nat.strongRecOn generalizing ls with
  | ind n ih =>
    cases ls with
    | nil => exact Or.inl ⟨[], .nil⟩
    | cons b bs =>
      rcases group_split b bs hl with ⟨g, rest, he, hg⟩ | ⟨hall, hi⟩ | ⟨rfl, hc, hf, hi⟩
      · have hne := isGroup_ne_nil hg
        have hgl : 0 < g.length := by
          cases g with
          | nil => exact absurd rfl hne
          | cons _ _ => simp
        have hlen : rest.length < n := by
          rw [hn, he, List.length_append]; omega
        rw [he] at hl ⊢
        rcases ih rest.length hlen (fun l h => hl l (by simp [h])) rfl with ⟨gs, hgs⟩ | ⟨herr, last, hlast, hb⟩
        · exact Or.inl ⟨g :: gs, .cons hg hgs⟩
        · right
          refine ⟨?_, last, ?_, hb⟩
          · intro lineOffset neg fuel num hfuel
            obtain ⟨b', bs', nx, r, he', hi, hp⟩ := iterate_of_group hl hg
            rw [he'] at hfuel ⊢
            cases fuel with
            | zero => simp at hfuel
            | succ fuel =>
              have hlen2 : (b' :: bs').length = g.length + rest.length := by rw [← he', List.length_append]
              simp only [List.length_cons] at hlen2 hfuel
              rw [chunkLines, chunkLoop_step hi, hp, herr _ _ _ _ (by omega)]
              rfl
          · rw [Option.mem_def] at hlast ⊢
            have : rest ≠ [] := by rintro rfl; simp at hlast
            rw [List.getLast?_append_of_ne_nil _ this]; exact hlast
      · right
        refine ⟨?_, ?_⟩
        · intro lineOffset neg fuel num hfuel
          cases fuel with
          | zero => simp at hfuel
          | succ fuel => exact chunkLoop_step_error hi
        · have hm := List.getLast_mem (l := b :: bs) (by simp)
          exact ⟨(b :: bs).getLast (by simp), by rw [Option.mem_def, List.getLast?_eq_some_getLast], Or.inl (hall _ hm)⟩
      · right
        refine ⟨?_, b, by simp, Or.inr hf⟩
        intro lineOffset neg fuel num hfuel
        cases fuel with
        | zero => simp at hfuel
        | succ fuel => exact chunkLoop_step_error hi

theorem chunksOf_eq_chunkLines (lineOffset : Int) (neg : Bool) (text : Str) :
    chunksOf lineOffset neg text = chunkLines lineOffset neg (readlines text).length 1 (readlines text) := by
  unfold chunksOf
  split
  · rename_i h; rw [h]; rfl
  · rename_i l ls h; rw [h]; rfl

theorem readlines_all_isLine (text : Str) : ∀ l ∈ readlines text, IsLine l := fun _ h => readlines_isLine h

/-- Main lemma: preprocessing succeeds iff the lines fall into groups, and then the chunks are those groups. -/
theorem chunksOf_ok_iff {lineOffset : Int} {neg : Bool} {text : Str} {cs : List Chunk} :
    chunksOf lineOffset neg text = .ok cs ↔
      ∃ gs, Groups (readlines text) gs ∧ cs = chunksFrom lineOffset neg 1 gs := by
  rw [chunksOf_eq_chunkLines]
  constructor
  · intro h
    rcases groups_or_error (readlines_all_isLine text) with ⟨gs, hgs⟩ | ⟨herr, _⟩
    · rw [chunkLines_of_groups hgs (readlines_all_isLine text) _ _ (Nat.le_refl _)] at h
      exact ⟨gs, hgs, by cases h; rfl⟩
    · rw [herr _ _ _ _ (Nat.le_refl _)] at h; cases h
  · rintro ⟨gs, hgs, rfl⟩
    exact chunkLines_of_groups hgs (readlines_all_isLine text) _ _ (Nat.le_refl _)

theorem chunksOf_error {lineOffset : Int} {neg : Bool} {text : Str} {e : PyErr}
    (h : chunksOf lineOffset neg text = .error e) :
    e = .stopIteration ∧ ∃ last ∈ (readlines text).getLast?, Continued last ∨ FuncHeader last := by
  rw [chunksOf_eq_chunkLines] at h
  rcases groups_or_error (readlines_all_isLine text) with ⟨gs, hgs⟩ | ⟨herr, hlast⟩
  · rw [chunkLines_of_groups hgs (readlines_all_isLine text) _ _ (Nat.le_refl _)] at h; cases h
  · rw [herr _ _ _ _ (Nat.le_refl _)] at h
    cases h; exact ⟨rfl, hlast⟩

theorem groups_flatten {ls : List Str} {gs : List (List Str)} (h : Groups ls gs) : gs.flatten = ls := by
  induction h with
  | nil => rfl
  | cons _ _ ih => simp [ih]

theorem isGroup_unique {g g' rest rest' : List Str} (hl : ∀ l ∈ g ++ rest, IsLine l) (h : IsGroup g rest)
    (h' : IsGroup g' rest') (he : g ++ rest = g' ++ rest') : g = g' ∧ rest = rest' := by
  obtain ⟨b, bs, nx, r, e1, i1, p1⟩ := iterate_of_group hl h
  obtain ⟨b', bs', nx', r', e2, i2, p2⟩ := iterate_of_group (he ▸ hl) h'
  rw [he, e2] at e1
  cases e1
  rw [i1] at i2
  simp only [Except.ok.injEq, Prod.mk.injEq] at i2
  obtain ⟨_, rfl, rfl⟩ := i2
  rw [p1] at p2
  subst p2
  exact ⟨List.append_cancel_right he, rfl⟩

theorem groups_unique {ls : List Str} {gs gs' : List (List Str)} (hl : ∀ l ∈ ls, IsLine l) (h : Groups ls gs)
    (h' : Groups ls gs') : gs = gs' := by
  induction h generalizing gs' with
  | nil =>
    generalize he : ([] : List Str) = ls' at h'
    cases h' with
    | nil => rfl
    | @cons g' rest' gs'' hg' hgs' =>
      have := isGroup_ne_nil hg'
      simp at he; exact absurd he.1 this
  | @cons g rest gs hg hgs ih =>
    generalize he : g ++ rest = ls' at h'
    cases h' with
    | nil =>
      have := isGroup_ne_nil hg
      simp at he; exact absurd he.1 this
    | @cons g' rest' gs'' hg' hgs' =>
      obtain ⟨rfl, rfl⟩ := isGroup_unique hl hg hg' he
      rw [ih (fun l h => hl l (by simp [h])) hgs']

end Oelint

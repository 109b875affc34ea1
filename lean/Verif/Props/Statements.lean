import Verif.Lemmas.Tasks
import Verif.Lemmas.Sample
import Verif.Props.Names
/-! Single statements: C10, C11, C13, C26. -/
set_option linter.unusedSectionVars false
namespace Oelint
section
variable [Uni]
open Spec

/-! ## C10 -/

theorem strip_blanks {a b m : Str} (ha : ∀ c ∈ a, reSpace c = true) (hb : ∀ c ∈ b, reSpace c = true) (hm : m ∈ operators) :
    stripP pySpace (a ++ (m ++ b)) = m := by
  have hp : ∀ {l : Str}, (∀ c ∈ l, reSpace c = true) → ∀ c ∈ l, pySpace c = true := fun h c hc => by simp [pySpace, h c hc]
  rw [stripP, lstripP_append_all _ _ (hp ha)]
  simp only [operators, List.mem_cons, List.not_mem_nil, or_false] at hm
  have h1 : lstripP pySpace (m ++ b) = m ++ b := by
    rcases hm with rfl | rfl | rfl | rfl | rfl | rfl | rfl | rfl <;> rfl
  rw [h1, rstripP_append_all _ _ (hp hb)]
  rcases hm with rfl | rfl | rfl | rfl | rfl | rfl | rfl | rfl <;> decide

theorem Spec.Assignment.no_newline {line name ws1 op ws2 val : Str} (hl : Assignment line name ws1 op ws2 val) : '\n' ∉ line := by
  rw [hl.eq]
  intro hc
  simp only [List.mem_append] at hc
  rcases hc with hc | hc | hc | hc | hc
  · exact absurd (hl.name.chars _ hc) (by decide)
  · exact (hl.blanks1 _ hc).2 rfl
  · have := hl.op
    simp only [operators, List.mem_cons, List.not_mem_nil, or_false] at this
    rcases this with rfl | rfl | rfl | rfl | rfl | rfl | rfl | rfl <;> simp at hc
  · exact (hl.blanks2 _ hc).2 rfl
  · exact hl.val.1 hc

/-- C10, for all names the grammar allows: an assignment becomes a `Variable` with the operator and the value that were written and
with the pieces of the name in `VarName` and `SubItems`. -/
theorem C10_assignment (W : World) (n : Nat) (path : Str) (off : Int) (forced : Option Str) (s s' : Stash)
    (res : List Item) (h : addFile W n path off forced s = (.ok res, s')) (it : Item) (hi : it ∈ res)
    (line nl name ws1 op ws2 val : Str) (hr : it.realRaw = line ++ nl) (hnl : nl = [] ∨ nl = c!"\n")
    (hl : Assignment line name ws1 op ws2 val) (hb : '\\' ∉ line) (hin : ¬ c!"${@" <:+: line) :
    ∃ v, it.payload = .variable v ∧ v.varOp = ws1 ++ (op ++ ws2) ∧ stripP pySpace v.varOp = op ∧ v.varValue = val ∧
      (it.delim = ':' ∨ it.delim = '_' ∧ ':' ∉ name) ∧
      ∀ first rest, Pieces it.delim name (first :: rest) → ∃ vs ss, Distributed (Override first) rest vs ss ∧
        v.varName = joinS [it.delim] ((first :: vs).filter (fun x => !x.isEmpty)) ∧
        v.subItems = ss.filter (fun x => !x.isEmpty) := by
  have hno : '\n' ∉ line := hl.no_newline
  obtain ⟨fuel, l, p, s1, s2, d, it0, hc, hpl, hdl⟩ := item_of_line h hi hr hnl ⟨hno, hb⟩ hin
  rw [classify_assigns _ _ _ _ _ _ hl] at hc
  simp only [Prod.mk.injEq, Except.ok.injEq] at hc
  obtain ⟨⟨rfl, -⟩, -⟩ := hc
  obtain ⟨v, h1, h2, h3⟩ := C18_no_piece_is_lost s1.nextUid p name val (ws1 ++ (op ++ ws2))
  rw [hdl] at h2
  have hv : v.varOp = ws1 ++ (op ++ ws2) ∧ v.varValue = val := by
    unfold mkVariable at h1
    simp only [mkItemD, Payload.variable.injEq] at h1
    rw [← h1]; exact ⟨rfl, rfl⟩
  refine ⟨v, by rw [← hpl, h1], hv.1, ?_, hv.2, ?_, ?_⟩
  · rw [hv.1]
    exact strip_blanks (fun c hc => (hl.blanks1 c hc).1) (fun c hc => (hl.blanks2 c hc).1) hl.op
  · rw [h2, delimiter]
    by_cases hx : p.newStyle = true ∨ ':' ∈ name
    · rw [if_pos hx]; exact Or.inl rfl
    · rw [if_neg hx]; exact Or.inr ⟨rfl, fun hh => hx (Or.inr hh)⟩
  · intro first rest hp
    obtain ⟨vs, ss, h4, h5, h6, -⟩ := h3 it.delim first rest h2 hp
    exact ⟨vs, ss, h4, h5, h6⟩

theorem capital_range {c : Char} (h : 'A' ≤ c ∧ c ≤ 'Z') : NameChar c ∧ ¬ OverrideChar c ∧ c ≠ ':' ∧ c ≠ '$' := by
  have e : ∀ a b : Char, (a ≤ b) = (a.toNat ≤ b.toNat) := fun a b => by
    rw [Char.le_def, UInt32.le_iff_toNat_le]; rfl
  refine ⟨Or.inl h, ?_, ?_, ?_⟩
  · simp only [e] at h
    have a1 : 'A'.toNat = 65 := rfl
    have a2 : 'Z'.toNat = 90 := rfl
    unfold OverrideChar
    simp only [e]
    have a3 : 'a'.toNat = 97 := rfl
    have a4 : '9'.toNat = 57 := rfl
    rintro (h2 | h2 | rfl | rfl | rfl)
    · omega
    · omega
    all_goals exact absurd h (by decide)
  · rintro rfl; exact absurd h (by decide)
  · rintro rfl; exact absurd h (by decide)

theorem capital_assignName {n : Str} (h : CapitalName n) : AssignName n := by
  have hchar : ∀ c ∈ n, NameChar c ∧ c ≠ ':' ∧ c ≠ '.' ∧ ¬ ('a' ≤ c ∧ c ≤ 'z') := by
    intro c hc
    rcases h.chars c hc with hx | hx | rfl
    · refine ⟨Or.inl hx, ?_, ?_, ?_⟩
      · rintro rfl; exact absurd hx (by decide)
      · rintro rfl; exact absurd hx (by decide)
      · exact fun hz => (capital_range hx).2.1 (Or.inl hz)
    · refine ⟨Or.inr (Or.inl hx), ?_, ?_, ?_⟩
      · rintro rfl; exact absurd hx (by decide)
      · rintro rfl; exact absurd hx (by decide)
      · intro hz
        have e : ∀ a b : Char, (a ≤ b) = (a.toNat ≤ b.toNat) := fun a b => by
          rw [Char.le_def, UInt32.le_iff_toNat_le]; rfl
        simp only [e] at hx hz
        have a3 : 'a'.toNat = 97 := rfl
        have a4 : '9'.toNat = 57 := rfl
        omega
    · decide
  have hlow : ∀ {m : Str}, (∃ c ∈ m, 'a' ≤ c ∧ c ≤ 'z') → n ≠ m := by
    rintro m ⟨c, hc, hx⟩ rfl
    exact (hchar c hc).2.2.2 hx
  refine ⟨?_, fun c hc => (hchar c hc).1, ⟨?_, ?_⟩, ?_, ?_⟩
  · obtain ⟨ps, ⟨h1, h2, -⟩, h3⟩ := h.pieces
    rintro rfl
    cases ps with
    | nil => exact h1 rfl
    | cons p ps =>
      obtain ⟨c, t, rfl, -⟩ := h3 p (by simp)
      cases ps with
      | nil => simp [joinS] at h2
      | cons q ps => rw [joinS_cons _ _ _ (by simp)] at h2; simp at h2
  · intro hx
    have := List.mem_of_getLast? hx
    exact (hchar _ this).2.1 rfl
  · intro hx
    have := List.mem_of_getLast? hx
    exact (hchar _ this).2.2.1 rfl
  · simp only [keywords, List.mem_cons, List.not_mem_nil, or_false, not_or]
    refine ⟨h.other.1, h.other.2, hlow ⟨'i', by decide, by decide⟩, hlow ⟨'e', by decide, by decide⟩, hlow ⟨'d', by decide, by decide⟩,
      hlow ⟨'i', by decide, by decide⟩, hlow ⟨'r', by decide, by decide⟩, hlow ⟨'i', by decide, by decide⟩, hlow ⟨'a', by decide, by decide⟩,
      hlow ⟨'d', by decide, by decide⟩, hlow ⟨'u', by decide, by decide⟩, hlow ⟨'a', by decide, by decide⟩, hlow ⟨'a', by decide, by decide⟩⟩
  · intro k
    exact hlow ⟨'i', by simp, by decide⟩

theorem filter_nonempty {l : List Str} (h : ∀ p ∈ l, p ≠ []) : l.filter (fun x => !x.isEmpty) = l := by
  rw [List.filter_eq_self]
  intro p hp
  simp [h p hp]

/-- C10 as stated: `NAME OP "VALUE"` with a name in capital letters becomes a `Variable` with that name, operator and value. -/
theorem C10_capital_names (W : World) (n : Nat) (path : Str) (off : Int) (forced : Option Str) (s s' : Stash)
    (res : List Item) (h : addFile W n path off forced s = (.ok res, s')) (it : Item) (hi : it ∈ res)
    (nl name ws1 op ws2 val : Str) (hn : CapitalName name) (hop : op ∈ operators) (hw1 : Blanks ws1) (hw2 : Blanks ws2)
    (hv : '\n' ∉ val ∧ val.head? ≠ some '"' ∧ val.getLast? ≠ some '"')
    (hr : it.realRaw = name ++ (ws1 ++ (op ++ (ws2 ++ '"' :: (val ++ c!"\"")))) ++ nl) (hnl : nl = [] ∨ nl = c!"\n")
    (hb : '\\' ∉ val) (hin : ¬ c!"${@" <:+: val) :
    ∃ v, it.payload = .variable v ∧ v.varName = name ∧ v.subItems = [] ∧ stripP pySpace v.varOp = op ∧
      varValueStripped v = val := by
  have hass : Assignment (name ++ (ws1 ++ (op ++ (ws2 ++ '"' :: (val ++ c!"\""))))) name ws1 op ws2 ('"' :: (val ++ c!"\"")) :=
    ⟨rfl, capital_assignName hn, hop, hw1, hw2, by simp [hv.1], by
      intro c hc; simp at hc; subst hc; exact ⟨by decide, fun _ => by decide⟩⟩
  have hopc : ∀ c ∈ op, c ≠ '\\' ∧ c ≠ '$' ∧ c ≠ '{' ∧ c ≠ '@' := by
    simp only [operators, List.mem_cons, List.not_mem_nil, or_false] at hop
    rcases hop with rfl | rfl | rfl | rfl | rfl | rfl | rfl | rfl <;> decide
  have hpre : ∀ c ∈ name ++ (ws1 ++ (op ++ ws2)), c ≠ '\\' ∧ c ≠ '$' := by
    intro c hc
    simp only [List.mem_append] at hc
    rcases hc with hc | hc | hc | hc
    · rcases hn.chars c hc with hx | hx | rfl
      · exact ⟨by rintro rfl; exact absurd hx (by decide), (capital_range hx).2.2.2⟩
      · exact ⟨by rintro rfl; exact absurd hx (by decide), by rintro rfl; exact absurd hx (by decide)⟩
      · decide
    · exact ⟨by rintro rfl; exact absurd (hw1 _ hc).1 (by decide), by rintro rfl; exact absurd (hw1 _ hc).1 (by decide)⟩
    · exact ⟨(hopc c hc).1, (hopc c hc).2.1⟩
    · exact ⟨by rintro rfl; exact absurd (hw2 _ hc).1 (by decide), by rintro rfl; exact absurd (hw2 _ hc).1 (by decide)⟩
  have hb' : '\\' ∉ name ++ (ws1 ++ (op ++ (ws2 ++ '"' :: (val ++ c!"\"")))) := by
    intro hc
    have : '\\' ∈ (name ++ (ws1 ++ (op ++ ws2))) ++ ('"' :: (val ++ c!"\"")) := by simpa using hc
    rcases List.mem_append.1 this with hc | hc
    · exact (hpre _ hc).1 rfl
    · simp at hc; exact hb hc
  have hin' : ¬ c!"${@" <:+: name ++ (ws1 ++ (op ++ (ws2 ++ '"' :: (val ++ c!"\"")))) := by
    rintro ⟨a, b, e⟩
    have e : a ++ ('$' :: '{' :: '@' :: b) = (name ++ (ws1 ++ (op ++ (ws2 ++ c!"\"")))) ++ (val ++ c!"\"") := by
      simpa using e
    rcases List.append_eq_append_iff.1 e with ⟨y, h3, h4⟩ | ⟨y, h3, h4⟩
    · cases y with
      | nil =>
        have := prefix_before (p := c!"${@") (y := val) (c := '"') (z := []) ⟨b, by simpa using h4⟩ (by decide)
        exact hin this.isInfix
      | cons d y =>
        simp at h4
        have : d ∈ (name ++ (ws1 ++ (op ++ ws2))) ++ c!"\"" := by
          have : d ∈ name ++ (ws1 ++ (op ++ (ws2 ++ c!"\""))) := by rw [h3]; simp
          simpa using this
        rw [← h4.1] at this
        rcases List.mem_append.1 this with hc | hc
        · exact (hpre _ hc).2 rfl
        · simp at hc
    · have := prefix_before (p := c!"${@") (y := val.drop y.length) (c := '"') (z := []) (by
        have h5 : y ++ ('$' :: '{' :: '@' :: b) = val ++ c!"\"" := h4.symm
        have hlen : y.length ≤ val.length := by
          have := congrArg List.length h5; simp at this; omega
        have h6 : y = val.take y.length := by
          have := congrArg (List.take y.length) h5
          rw [List.take_left, List.take_append_of_le_length hlen] at this
          exact this
        refine ⟨b, ?_⟩
        have := congrArg (List.drop y.length) h5
        rw [List.drop_left, List.drop_append_of_le_length hlen] at this
        simpa using this) (by decide)
      exact hin (this.isInfix.trans (List.drop_suffix _ _).isInfix)
  obtain ⟨v, h1, -, h3, h4, h5, h6⟩ := C10_assignment W n path off forced s s' res h it hi _ nl name ws1 op ws2 _ hr hnl hass hb' hin'
  refine ⟨v, h1, ?_⟩
  have hval : varValueStripped v = val :=
    (C21_var_value_stripped v).1 [] [] val (by rw [h4]; simp) (by simp) (by simp) hv.2.1 hv.2.2
  have hnames : v.varName = name ∧ v.subItems = [] := by
    rcases h5 with hd | ⟨hd, hcol⟩
    · have hcol : ':' ∉ name := by
        intro hc
        rcases hn.chars _ hc with hx | hx | hx
        · exact absurd hx (by decide)
        · exact absurd hx (by decide)
        · exact absurd hx (by decide)
      obtain ⟨vs, ss, h7, h8, h9⟩ := h6 name [] (by rw [hd]; exact ⟨by simp, rfl, by simpa using hcol⟩)
      cases h7
      have hne : name ≠ [] := (capital_assignName hn).ne
      rw [h8, h9]
      simp [joinS, hne]
    · obtain ⟨ps, hp, hps⟩ := hn.pieces
      cases ps with
      | nil => exact absurd rfl hp.1
      | cons first rest =>
        obtain ⟨vs, ss, h7, h8, h9⟩ := h6 first rest (by rw [hd]; exact hp)
        have hnot : ∀ p ∈ rest, ¬ Override first p := by
          intro p hpm
          obtain ⟨c, t, rfl, hc⟩ := hps p (by simp [hpm])
          have hc' := capital_range hc
          have hdash : c ≠ '-' := by rintro rfl; exact absurd hc (by decide)
          have hbd : beforeDash (c :: t) = c :: beforeDash t := by simp [beforeDash, hdash]
          rintro (⟨-, x, u, hx, ho⟩ | hx)
          · rw [hbd] at hx; simp at hx; rw [← hx.1] at ho; exact hc'.2.1 ho
          · rw [hbd] at hx; simp at hx; exact hc'.2.2.2 hx.1
        have hdist : ∀ {l vs ss : List Str}, (∀ p ∈ l, ¬ Override first p) → Distributed (Override first) l vs ss → vs = l ∧ ss = [] := by
          intro l vs ss hl hd
          induction hd with
          | nil => exact ⟨rfl, rfl⟩
          | left _ _ ih => obtain ⟨h1, h2⟩ := ih (fun p hp => hl p (by simp [hp])); exact ⟨by rw [h1], h2⟩
          | right hp _ _ => exact absurd hp (hl _ (by simp))
        obtain ⟨rfl, rfl⟩ := hdist hnot h7
        rw [h8, h9, filter_nonempty (by intro p hp'; obtain ⟨c, t, rfl, -⟩ := hps p hp'; simp), hd, hp.2.1]
        exact ⟨rfl, rfl⟩
  exact ⟨hnames.1, hnames.2, h3, hval⟩

theorem assigns_first {line name ws1 op ws2 val : Str} (h : Assignment line name ws1 op ws2 val) :
    ∃ c t, name = c :: t ∧ NameChar c := by
  obtain ⟨c, t, rfl⟩ := List.exists_cons_of_ne_nil h.name.ne
  exact ⟨c, t, rfl, h.name.chars c (by simp)⟩

theorem nameChar_not_pySpace {c : Char} (h : NameChar c) : pySpace c = false := by
  have e : ∀ a b : Char, (a ≤ b) = (a.toNat ≤ b.toNat) := fun a b => by
    rw [Char.le_def, UInt32.le_iff_toNat_le]; rfl
  rw [pySpace, (nameChar_not_space h).1]
  unfold NameChar at h
  simp only [e, List.mem_cons, List.not_mem_nil, or_false] at h
  rcases h with h | h | h | h | h | h | h | h | h | h
  · simp at h; simp; omega
  · simp at h; simp; omega
  · simp at h; simp; omega
  all_goals subst h; decide

theorem assigns_not_def {line name ws1 op ws2 val nl : Str} (h : Assignment line name ws1 op ws2 val) :
    ¬ DefLine (line ++ nl) ∧ ¬ CommentLine (line ++ nl) := by
  have hopc : ∃ o os, op = o :: os ∧ o ∉ c!"def " := by
    have := h.op
    simp only [operators, List.mem_cons, List.not_mem_nil, or_false] at this
    rcases this with rfl | rfl | rfl | rfl | rfl | rfl | rfl | rfl <;> exact ⟨_, _, rfl, by decide⟩
  obtain ⟨o, os, ho, hod⟩ := hopc
  have hcl : NameChar ' ' = False := by simp; decide
  refine ⟨?_, ?_⟩
  · rintro ⟨w, a, x, b, e, hw, -⟩
    obtain ⟨c, t, hn, hc⟩ := assigns_first h
    have hw0 : w = [] := by
      cases w with
      | nil => rfl
      | cons y w =>
        rw [h.eq, hn] at e
        simp at e
        have h1 := hw y (by simp)
        rw [← e.1, nameChar_not_pySpace hc] at h1
        cases h1
    subst hw0
    rw [h.eq, ho] at e
    have key : ∀ (n k : Str), n ++ (ws1 ++ (o :: (os ++ (ws2 ++ (val ++ nl))))) = k ++ ' ' :: (a ++ x :: b) → (∀ c ∈ k, c ∈ c!"def") →
        (∀ c ∈ n, NameChar c) → n = k := by
      intro n
      induction n with
      | nil =>
        intro k e hk _
        cases k with
        | nil => rfl
        | cons y k =>
          cases ws1 with
          | nil => simp at e; exact absurd (hk y (by simp)) (by rw [← e.1]; intro hh; exact hod (by simp at hh ⊢; tauto))
          | cons z ws1 =>
            simp at e
            have h1 := (h.blanks1 z (by simp)).1
            have h2 := hk y (by simp)
            rw [← e.1] at h2
            simp at h2
            rcases h2 with rfl | rfl | rfl <;> exact absurd h1 (by decide)
      | cons y n ih =>
        intro k e hk hn
        cases k with
        | nil =>
          simp at e
          have := hn y (by simp)
          rw [e.1] at this
          exact absurd this (by decide)
        | cons z k =>
          simp at e
          rw [e.1, ih k (by simpa using e.2) (fun c hc => hk c (by simp [hc])) (fun c hc => hn c (by simp [hc]))]
    have hdef := key name c!"def" (by simpa using e) (by simp) h.name.chars
    exact h.name.keyword (by rw [hdef]; decide)
  · rintro ⟨t, e⟩
    obtain ⟨c, u, hn, hc⟩ := assigns_first h
    rw [h.eq, hn] at e
    simp at e
    rw [e.1] at hc
    exact absurd hc (by decide)

theorem groups_single {ls : List Str} (h : ∀ l ∈ ls, ¬ Continued l ∧ ¬ FuncHeader l ∧ ¬ CommentLine l ∧ ¬ DefLine l) :
    Groups ls (ls.map (fun l => [l])) := by
  induction ls with
  | nil => exact Groups.nil
  | cons l ls ih =>
    have := Groups.cons (g := [l]) (rest := ls) (Or.inr (Or.inr (Or.inr (Or.inr ⟨l, rfl, h l (by simp)⟩)))) (ih (fun x hx => h x (by simp [hx])))
    simpa using this

/-- C10: a file of assignments gives one item per line, in order; so each of them is what `C10_assignment` says. -/
theorem C10_one_item_per_assignment (W : World) (n : Nat) (path : Str) (off : Int) (forced : Option Str) (s s' : Stash)
    (res : List Item) (lines : List Str) (h : addFile W n path off forced s = (.ok res, s'))
    (hnew : alreadySeen s (abspath W.cwd path) = false)
    (hf : W.file (abspath W.cwd path) = .text (lines.map (· ++ c!"\n")).flatten)
    (hl : ∀ l ∈ lines, (∃ name ws1 op ws2 val, Assignment l name ws1 op ws2 val) ∧ '\\' ∉ l ∧ '\r' ∉ l ∧ ¬ FuncHeader (l ++ c!"\n")) :
    res.map (·.realRaw) = lines.map (· ++ c!"\n") := by
  obtain ⟨k, ⟨ok⟩⟩ := addFile_file h hnew hf
  have hnl : ∀ l ∈ lines, '\n' ∉ l := by
    intro l hlm
    obtain ⟨⟨name, ws1, op, ws2, val, ha⟩, -⟩ := hl l hlm
    exact ha.no_newline
  have hr : '\r' ∉ (lines.map (· ++ c!"\n")).flatten := by
    simp only [List.mem_flatten, List.mem_map, not_exists, not_and]
    rintro _ ⟨l, hlm, rfl⟩ hc
    simp at hc
    exact (hl l hlm).2.2.1 hc
  have hls : readlines (univNewlines (lines.map (· ++ c!"\n")).flatten) = lines.map (· ++ c!"\n") := by
    rw [univNewlines_id hr]
    refine (isLines_unique ⟨rfl, ?_, ?_, ?_⟩).symm
    · simp
    · simp only [List.mem_map]
      rintro _ ⟨l, hlm, rfl⟩
      rw [List.dropLast_concat]
      exact hnl l hlm
    · intro x hx
      have := List.mem_of_mem_dropLast hx
      obtain ⟨l, hlm, rfl⟩ := List.mem_map.1 this
      simp
  have hg := ok.groups
  rw [hls] at hg
  have hs : Groups (lines.map (· ++ c!"\n")) ((lines.map (· ++ c!"\n")).map (fun l => [l])) := by
    apply groups_single
    intro x hx
    obtain ⟨l, hlm, rfl⟩ := List.mem_map.1 hx
    obtain ⟨⟨name, ws1, op, ws2, val, ha⟩, hb, -, hfh⟩ := hl l hlm
    refine ⟨?_, hfh, (assigns_not_def ha).2, (assigns_not_def ha).1⟩
    rintro ⟨a, ws, e, -⟩
    have : '\\' ∈ l ++ c!"\n" := by rw [e]; simp
    simp at this
    exact hb this
  have hgs : ok.gs = (lines.map (· ++ c!"\n")).map (fun l => [l]) := by
    refine groups_unique ?_ hg hs
    intro x hx
    rw [← hls] at hx
    exact readlines_isLine hx
  rw [ok.realRaw, hgs]
  simp

/-! ## C11 -/

/-- C11: an item is a `Comment` exactly if the first character of its text that is not a blank is a `#`. -/
theorem C11_comments_always_win (W : World) (n : Nat) (path : Str) (off : Int) (forced : Option Str) (s s' : Stash)
    (res : List Item) (h : addFile W n path off forced s = (.ok res, s')) (it : Item) (hi : it ∈ res) :
    (it.payload = .comment ↔ StartsWithHash it.raw) ∧ (StartsWithHash it.realRaw → it.payload = .comment) := by
  rcases addFile_cases h with rfl | ⟨t, _, _, k, ⟨ok⟩⟩
  · cases hi
  obtain ⟨l, p, s1, s2, d, it0, h1, h2, h3⟩ := ok.classified hi
  have hp : it.payload = it0.payload := by rw [h2]
  have key : it.payload = .comment ↔ StartsWithHash it.raw := by
    rw [hp, classify_comment h1, startsWithHash_cntOf]
  refine ⟨key, ?_⟩
  rintro ⟨ws, r, e, hws⟩
  rw [key]
  obtain ⟨r', h4⟩ := substituted_prefix h3 (p := ws ++ c!"#") (r := r) (by rw [e]; simp) (by
    intro hc
    simp at hc
    exact absurd (hws _ hc) (by decide))
  exact ⟨ws, r', by rw [h4]; simp, hws⟩

/-! ## C13

Full statement: the `Unset` for `unset NAME` has `VarName` `NAME`. False for all names with more than one character
(`C13_counterexample`): the lazy `.+?` is followed by nothing that has to match, `VarName` is the first character. -/

theorem paren_cons {a : Char} {u : Str} (h : '(' ∉ a :: u) : '(' ∉ u := fun hc => h (by simp [hc])

/-- C13, partial: what `unset` gives: the first character of the name and no flag if there is no `]`. So `VarName` is right for
names of one character only. Missing: all longer names, for which the claim is false. -/
theorem C13_unset_partial (W : World) (n : Nat) (path : Str) (off : Int) (forced : Option Str) (s s' : Stash)
    (res : List Item) (h : addFile W n path off forced s = (.ok res, s')) (it : Item) (hi : it ∈ res)
    (ws nl name : Str) (hws : Blanks ws) (hwn : ws ≠ []) (hname : name ≠ [] ∧ ∀ c ∈ name, NameChar c)
    (hr : it.realRaw = c!"unset" ++ (ws ++ name) ++ nl) (hnl : nl = [] ∨ nl = c!"\n") :
    it.payload = .unset (name.take 1) [] ∧ (name.length = 1 → it.payload = .unset name []) := by
  have hall : ∀ c ∈ c!"unset" ++ (ws ++ name), c ≠ '\n' ∧ c ≠ '\\' ∧ c ≠ '(' ∧ c ≠ '@' := by
    intro c hc
    simp only [List.mem_append] at hc
    rcases hc with hc | hc | hc
    · revert c; decide
    · have h1 := hws c hc
      exact ⟨h1.2, by rintro rfl; exact absurd h1.1 (by decide), by rintro rfl; exact absurd h1.1 (by decide), by rintro rfl; exact absurd h1.1 (by decide)⟩
    · have h1 := hname.2 c hc
      exact ⟨by rintro rfl; exact absurd h1 (by decide), by rintro rfl; exact absurd h1 (by decide), by rintro rfl; exact absurd h1 (by decide),
        by rintro rfl; exact absurd h1 (by decide)⟩
  obtain ⟨fuel, l, p, s1, s2, d, it0, hc, hpl, -⟩ := item_of_line h hi hr hnl
    ⟨fun hc => (hall _ hc).1 rfl, fun hc => (hall _ hc).2.1 rfl⟩
    (by rintro ⟨a, b, e⟩; exact (hall '@' (by rw [← e]; simp)).2.2.2 rfl)
  obtain ⟨c, m, hcm⟩ := List.exists_cons_of_ne_nil hname.1
  subst hcm
  obtain ⟨mt, h1, h2, h3⟩ := reUnset_plain (m := m) hwn (fun c hc => (hws c hc).1) (nameChar_not_space (hname.2 c (by simp))).1
    (fun hb => absurd (hname.2 _ (List.mem_cons_of_mem _ hb)) (by decide))
  have h4 := classify_unset (W := W) (add := addFile W fuel) (file := abspath W.cwd path) (lineno := l) (p := p) (s := s1)
    (u := c!"nset" ++ (ws ++ c :: m)) (m := mt) (fun hb => (hall '(' (List.mem_cons_of_mem _ hb)).2.2.1 rfl) h1
  have hc' : classify W (addFile W fuel) (abspath W.cwd path) l p ('u' :: (c!"nset" ++ (ws ++ c :: m))) parseOrder s1 = (.ok (it0, d), s2) := hc
  rw [h4] at hc'
  simp only [Prod.mk.injEq, Except.ok.injEq] at hc'
  obtain ⟨⟨rfl, -⟩, -⟩ := hc'
  have hp : it.payload = .unset [c] [] := by
    rw [← hpl, h2, h3]; rfl
  refine ⟨by rw [hp]; rfl, ?_⟩
  intro hlen
  cases m with
  | nil => exact hp
  | cons x m => simp at hlen

/-- C13, partial: `unset NAME[FLAG]` gives the flag for names of one character. -/
theorem C13_unset_flag_partial (W : World) (n : Nat) (path : Str) (off : Int) (forced : Option Str) (s s' : Stash)
    (res : List Item) (h : addFile W n path off forced s = (.ok res, s')) (it : Item) (hi : it ∈ res)
    (ws nl flag : Str) (c : Char) (hws : Blanks ws) (hwn : ws ≠ []) (hc : NameChar c)
    (hflag : flag ≠ [] ∧ ∀ c ∈ flag, c = '_' ∨ c = '-' ∨ c = '.' ∨ (TaskChar c))
    (hr : it.realRaw = c!"unset" ++ (ws ++ c :: '[' :: (flag ++ c!"]")) ++ nl) (hnl : nl = [] ∨ nl = c!"\n") :
    it.payload = .unset [c] flag := by
  have hf : ∀ c ∈ flag, c ≠ '\n' ∧ c ≠ '\\' ∧ c ≠ '(' ∧ c ≠ '@' ∧ c ≠ '[' ∧ c ≠ ']' := by
    intro c hc
    rcases hflag.2 c hc with rfl | rfl | rfl | hx
    · decide
    · decide
    · decide
    · refine ⟨?_, ?_, ?_, ?_, ?_, ?_⟩ <;> (rintro rfl; exact absurd hx (by decide))
  have hall : ∀ x ∈ c!"unset" ++ (ws ++ c :: '[' :: (flag ++ c!"]")), x ≠ '\n' ∧ x ≠ '\\' ∧ x ≠ '(' ∧ x ≠ '@' := by
    intro x hx
    simp only [List.mem_append, List.mem_cons, List.not_mem_nil, or_false] at hx
    rcases hx with hx | hx | rfl | rfl | hx | rfl
    · rcases hx with rfl | rfl | rfl | rfl | rfl <;> decide
    · have h1 := hws x hx
      exact ⟨h1.2, by rintro rfl; exact absurd h1.1 (by decide), by rintro rfl; exact absurd h1.1 (by decide), by rintro rfl; exact absurd h1.1 (by decide)⟩
    · exact ⟨by rintro rfl; exact absurd hc (by decide), by rintro rfl; exact absurd hc (by decide), by rintro rfl; exact absurd hc (by decide),
        by rintro rfl; exact absurd hc (by decide)⟩
    · decide
    · have := hf x hx; exact ⟨this.1, this.2.1, this.2.2.1, this.2.2.2.1⟩
    · decide
  obtain ⟨fuel, l, p, s1, s2, d, it0, hcl, hpl, -⟩ := item_of_line h hi hr hnl
    ⟨fun hc => (hall _ hc).1 rfl, fun hc => (hall _ hc).2.1 rfl⟩
    (by rintro ⟨a, b, e⟩; exact (hall '@' (by rw [← e]; simp)).2.2.2 rfl)
  obtain ⟨mt, h1, h2, h3⟩ := reUnset_flag (f := flag) hwn (fun c hc => (hws c hc).1) (nameChar_not_space hc).1 hflag.1
    (fun hb => (hf _ hb).1 rfl) (fun hb => (hf '[' (List.mem_of_mem_head? hb)).2.2.2.2.1 rfl)
  have h4 := classify_unset (W := W) (add := addFile W fuel) (file := abspath W.cwd path) (lineno := l) (p := p) (s := s1)
    (u := c!"nset" ++ (ws ++ c :: '[' :: (flag ++ c!"]"))) (m := mt) (fun hb => (hall '(' (List.mem_cons_of_mem _ hb)).2.2.1 rfl) h1
  have hc' : classify W (addFile W fuel) (abspath W.cwd path) l p ('u' :: (c!"nset" ++ (ws ++ c :: '[' :: (flag ++ c!"]")))) parseOrder s1 = (.ok (it0, d), s2) := hcl
  rw [h4] at hc'
  simp only [Prod.mk.injEq, Except.ok.injEq] at hc'
  obtain ⟨⟨rfl, -⟩, -⟩ := hc'
  have hstrip : stripP (oneOf c!"[]") flag = flag := by
    have hno : ∀ c ∈ flag, oneOf c!"[]" c = false := by
      intro c hc; have := hf c hc; simp [oneOf, this]
    obtain ⟨x, f', rfl⟩ := List.exists_cons_of_ne_nil hflag.1
    rw [stripP, lstripP, List.dropWhile_cons_of_neg (by simp [hno x (by simp)])]
    have hne := List.dropLast_concat_getLast (l := x :: f') (by simp)
    rw [← hne]
    exact rstripP_concat_not _ _ (hno _ (List.getLast_mem _))
  rw [← hpl, h2, h3]
  show Payload.unset [c] (stripP (oneOf c!"[]") flag) = _
  rw [hstrip]

/-! ## C26 -/

/-- C26: `addtask F before B.. after A..` becomes a `TaskAdd` with exactly those names; either clause may be missing and they may come
in either order; a comment may follow. -/
theorem C26_addtask (W : World) (n : Nat) (path : Str) (off : Int) (forced : Option Str) (s s' : Stash)
    (res : List Item) (h : addFile W n path off forced s = (.ok res, s')) (it : Item) (hi : it ∈ res)
    (ws task cl cmt nl : Str) (bs as : List Str) (hws : Blanks ws) (hwn : ws ≠ []) (ht : TaskName task)
    (hns : ∀ x ∈ scripts, ¬ x <+: task) (hcl : Clauses cl bs as) (hcm : Comment cmt)
    (hchars : ∀ c ∈ cl ++ cmt, c ≠ '\n' ∧ c ≠ '\\' ∧ c ≠ '(' ∧ c ≠ '@')
    (hr : it.realRaw = c!"addtask" ++ (ws ++ (task ++ (cl ++ cmt))) ++ nl) (hnl : nl = [] ∨ nl = c!"\n") :
    it.payload = .taskAdd task bs as cmt := by
  have hall : ∀ x ∈ c!"addtask" ++ (ws ++ (task ++ (cl ++ cmt))), x ≠ '\n' ∧ x ≠ '\\' ∧ x ≠ '(' ∧ x ≠ '@' := by
    intro x hx
    rw [List.mem_append, List.mem_append, List.mem_append] at hx
    rcases hx with hx | hx | hx | hx
    · revert x; decide
    · have h1 := hws x hx
      exact ⟨h1.2, by rintro rfl; exact absurd h1.1 (by decide), by rintro rfl; exact absurd h1.1 (by decide), by rintro rfl; exact absurd h1.1 (by decide)⟩
    · have h1 := ht.chars x hx
      exact ⟨by rintro rfl; exact absurd h1 (by decide), by rintro rfl; exact absurd h1 (by decide), by rintro rfl; exact absurd h1 (by decide),
        by rintro rfl; exact absurd h1 (by decide)⟩
    · exact hchars x hx
  obtain ⟨fuel, l, p, s1, s2, d, it0, hc, hpl, -⟩ := item_of_line h hi hr hnl
    ⟨fun hc => (hall _ hc).1 rfl, fun hc => (hall _ hc).2.1 rfl⟩
    (by rintro ⟨a, b, e⟩; exact (hall '@' (by rw [← e]; simp)).2.2.2 rfl)
  obtain ⟨m, h1, h2, h3, h4, h5⟩ := reAddtask_match hwn (fun c hc => (hws c hc).1) ht hcl hcm
  have hv : taskAsVar ((reAddtask.group m c!"func").getD []) = false := by
    rw [h2]
    simp only [taskAsVar, Option.getD_some, List.any_eq_false]
    intro x hx hs
    exact hns x hx (List.isPrefixOf_iff_prefix.1 hs)
  have h6 := classify_addtask (W := W) (add := addFile W fuel) (file := abspath W.cwd path) (lineno := l) (p := p) (s := s1)
    (u := c!"ddtask" ++ (ws ++ (task ++ (cl ++ cmt)))) (m := m) (fun hb => (hall '(' (List.mem_cons_of_mem _ hb)).2.2.1 rfl) h1 hv
  have hc' : classify W (addFile W fuel) (abspath W.cwd path) l p ('a' :: (c!"ddtask" ++ (ws ++ (task ++ (cl ++ cmt))))) parseOrder s1 = (.ok (it0, d), s2) := hc
  rw [h6] at hc'
  simp only [Prod.mk.injEq, Except.ok.injEq] at hc'
  obtain ⟨⟨rfl, -⟩, -⟩ := hc'
  rw [← hpl]
  show Payload.taskAdd _ (splitNE ' ' _) (splitNE ' ' _) _ = _
  rw [h2, h3, h4, h5]; rfl

/-- C26: `deltask F` becomes a `TaskDel` with that name. -/
theorem C26_deltask (W : World) (n : Nat) (path : Str) (off : Int) (forced : Option Str) (s s' : Stash)
    (res : List Item) (h : addFile W n path off forced s = (.ok res, s')) (it : Item) (hi : it ∈ res)
    (ws task sp cmt nl : Str) (hws : Blanks ws) (hwn : ws ≠ []) (ht : TaskName task)
    (hsp : ∀ c ∈ sp, c = ' ') (hcm : Comment cmt) (hchars : ∀ c ∈ cmt, c ≠ '\n' ∧ c ≠ '\\' ∧ c ≠ '(' ∧ c ≠ '@')
    (hr : it.realRaw = c!"deltask" ++ (ws ++ (task ++ (sp ++ cmt))) ++ nl) (hnl : nl = [] ∨ nl = c!"\n") :
    it.payload = .taskDel task cmt := by
  have hall : ∀ x ∈ c!"deltask" ++ (ws ++ (task ++ (sp ++ cmt))), x ≠ '\n' ∧ x ≠ '\\' ∧ x ≠ '(' ∧ x ≠ '@' := by
    intro x hx
    rw [List.mem_append, List.mem_append, List.mem_append, List.mem_append] at hx
    rcases hx with hx | hx | hx | hx | hx
    · revert x; decide
    · have h1 := hws x hx
      exact ⟨h1.2, by rintro rfl; exact absurd h1.1 (by decide), by rintro rfl; exact absurd h1.1 (by decide), by rintro rfl; exact absurd h1.1 (by decide)⟩
    · have h1 := ht.chars x hx
      exact ⟨by rintro rfl; exact absurd h1 (by decide), by rintro rfl; exact absurd h1 (by decide), by rintro rfl; exact absurd h1 (by decide),
        by rintro rfl; exact absurd h1 (by decide)⟩
    · rw [hsp x hx]; decide
    · exact hchars x hx
  obtain ⟨fuel, l, p, s1, s2, d, it0, hc, hpl, -⟩ := item_of_line h hi hr hnl
    ⟨fun hc => (hall _ hc).1 rfl, fun hc => (hall _ hc).2.1 rfl⟩
    (by rintro ⟨a, b, e⟩; exact (hall '@' (by rw [← e]; simp)).2.2.2 rfl)
  obtain ⟨m, h1, h2, h3⟩ := reDeltask_match hwn (fun c hc => (hws c hc).1) ht hsp hcm
  rw [classify_deltask (u := ws ++ (task ++ (sp ++ cmt))) (fun hb => (hall '(' (List.mem_append_right _ hb)).2.2.1 rfl) h1] at hc
  simp only [Prod.mk.injEq, Except.ok.injEq] at hc
  obtain ⟨⟨rfl, -⟩, -⟩ := hc
  rw [← hpl]
  show Payload.taskDel _ _ = _
  rw [h2, h3]; rfl

end

/-! ## counterexample for C13 -/

attribute [local instance] Sample.asciiUni

/-- `unset FOO` -/
def unsetWorld : World := Sample.world [(c!"/w/a_1.bb", c!"unset FOO\n")]

theorem C13_counterexample : ∃ res s', addFile unsetWorld 3 c!"/w/a_1.bb" 0 none Sample.stash = (.ok res, s') ∧
    res.map (·.payload) = [.unset c!"F" []] := by
  obtain ⟨res, s', h, hp⟩ := Sample.okAnd_iff.1 (show Sample.okAnd (addFile unsetWorld 3 c!"/w/a_1.bb" 0 none Sample.stash)
    (fun res => decide (res.map (·.payload) = [.unset c!"F" []])) = true by decide +kernel)
  exact ⟨res, s', h, of_decide_eq_true hp⟩

/-- C13 as stated is false. -/
theorem C13_false : ¬ ∀ (W : World) (n : Nat) (path : Str) (s s' : Stash) (res : List Item) (name : Str),
    addFile W n path 0 none s = (.ok res, s') → (∀ c ∈ name, Spec.NameChar c) → name ≠ [] →
    alreadySeen s (abspath W.cwd path) = false → W.file (abspath W.cwd path) = .text (c!"unset " ++ name ++ c!"\n") →
    ∃ flag, res.map (·.payload) = [.unset name flag] := by
  intro hall
  obtain ⟨res, s', h, hp⟩ := C13_counterexample
  obtain ⟨flag, hf⟩ := hall _ _ _ _ _ _ c!"FOO" h (by decide) (by decide) (by decide +kernel) (by decide +kernel)
  rw [hp] at hf
  simp at hf

/-! ## the hypotheses can be met -/

/-- comments, assignments with all kinds of names, tasks, unset -/
def stmtText : Str :=
  c!"A_B = \"1 2\"\nSRC_URI:append:foo ??=\"x\"\n  # addtask x\nunset A\nunset B[fl-ag]\naddtask do_a before do_b  do_c after do_d # why\ndeltask do_a\naddtask do_q after do_r before do_s\n"

def stmtWorld : World := Sample.world [(c!"/w/a_1.bb", stmtText)]

/-- the sample is parsed and its items have the texts the theorems ask for -/
theorem stmt_run : ∃ res s', addFile stmtWorld 3 c!"/w/a_1.bb" 0 none Sample.stash = (.ok res, s') ∧
    res.map (·.realRaw) = [c!"A_B = \"1 2\"\n", c!"SRC_URI:append:foo ??=\"x\"\n", c!"  # addtask x\n", c!"unset A\n",
      c!"unset B[fl-ag]\n", c!"addtask do_a before do_b  do_c after do_d # why\n", c!"deltask do_a\n",
      c!"addtask do_q after do_r before do_s\n"] := by
  obtain ⟨res, s', h, hp⟩ := Sample.okAnd_iff.1 (show Sample.okAnd (addFile stmtWorld 3 c!"/w/a_1.bb" 0 none Sample.stash)
    (fun res => decide (res.map (·.realRaw) = [c!"A_B = \"1 2\"\n", c!"SRC_URI:append:foo ??=\"x\"\n", c!"  # addtask x\n", c!"unset A\n",
      c!"unset B[fl-ag]\n", c!"addtask do_a before do_b  do_c after do_d # why\n", c!"deltask do_a\n",
      c!"addtask do_q after do_r before do_s\n"])) = true by decide +kernel)
  exact ⟨res, s', h, of_decide_eq_true hp⟩

open Spec in
/-- C10: the first two lines meet the hypotheses -/
example : CapitalName c!"A_B" ∧ Assignment c!"SRC_URI:append:foo ??=\"x\"" c!"SRC_URI:append:foo" c!" " c!"??=" [] c!"\"x\"" := by
  refine ⟨⟨by decide, ⟨[c!"A", c!"B"], ⟨by decide, by decide, by decide⟩, ?_⟩, by decide⟩, ⟨by decide, ⟨by decide, by decide, by decide, by decide, ?_⟩, by decide, ?_, ?_, by decide, ?_⟩⟩
  · intro p hp
    simp at hp
    rcases hp with rfl | rfl
    · exact ⟨'A', [], rfl, by decide⟩
    · exact ⟨'B', [], rfl, by decide⟩
  · intro k hk; simp at hk
  · unfold Blanks; decide
  · unfold Blanks; decide
  · decide

open Spec in
/-- C26: the lines with `addtask` meet the hypotheses: both orders of the clauses -/
example : Clauses c!" before do_b  do_c after do_d " [c!"do_b", c!"do_c"] [c!"do_d"] ∧
    Clauses c!" after do_r before do_s" [c!"do_s"] [c!"do_r"] ∧ TaskName c!"do_a" ∧ Comment c!"# why" := by
  have nm : ∀ (t : Str) (ws : List Str), splitNE ' ' t = ws → t.head? = some ' ' →
      (∀ c ∈ t, c ≠ '#' ∧ c ≠ '\n' ∧ (reSpace c = true → c = ' ')) →
      (∀ n ∈ ws, ¬ c!"before" <:+: n ∧ ¬ c!"after" <:+: n) → NameList t ws :=
    fun t ws h1 h2 h3 h4 => ⟨h1 ▸ splitNE_words ' ' t, h2, h3, h4⟩
  exact ⟨Clauses.beforeAfter (w := c!" ") (b := c!" do_b  do_c ") (a := c!" do_d ") (by decide) (by decide)
      (nm _ _ (by decide) (by decide) (by decide) (by decide)) (nm _ _ (by decide) (by decide) (by decide) (by decide)) (by decide),
    Clauses.afterBefore (w := c!" ") (a := c!" do_r ") (b := c!" do_s") (by decide) (by decide)
      (nm _ _ (by decide) (by decide) (by decide) (by decide)) (nm _ _ (by decide) (by decide) (by decide) (by decide)) (by decide),
    ⟨by decide, by decide⟩, Or.inr (by decide)⟩

/-- the results on the sample -/
example : Sample.okAnd (addFile stmtWorld 3 c!"/w/a_1.bb" 0 none Sample.stash) (fun res =>
    decide ((res.drop 2).map (·.payload) = [.comment, .unset c!"A" [], .unset c!"B" c!"fl-ag",
      .taskAdd c!"do_a" [c!"do_b", c!"do_c"] [c!"do_d"] c!"# why", .taskDel c!"do_a" [],
      .taskAdd c!"do_q" [c!"do_s"] [c!"do_r"] []])) = true := by decide +kernel

end Oelint

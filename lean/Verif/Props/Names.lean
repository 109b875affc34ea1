import Verif.Lemmas.Names
/-!
# Names, modifiers, values, words: C17-C21, C24, C25

`mkVariable uid p name value op` is `Variable(origin, line, ..., name, value, operator)` called with the parameters `p`;
`mkFunction known uid p name body py fr` is `Function(...)`.
-/
namespace Oelint
open Spec
set_option linter.unusedSectionVars false
variable [Uni]

/-- the delimiter an item created with name `name` uses: ':' if the file uses the new syntax or the name contains one -/
def Spec.delimiter (newStyle : Bool) (name : Str) : Char := if newStyle = true ∨ ':' ∈ name then ':' else '_'

theorem delimFor_eq (ns : Bool) (name : Str) : delimFor (initDelim ns) name = Spec.delimiter ns name := by
  unfold delimFor initDelim Spec.delimiter
  by_cases h : ':' ∈ name <;> cases ns <;> simp [h]

theorem splitNE_joinS {d : Char} {l : List Str} (h : ∀ p ∈ l, d ∉ p ∧ p ≠ []) : splitNE d (joinS [d] l) = l := by
  unfold splitNE
  cases hl : l with
  | nil => simp [joinS, splitC]
  | cons a r =>
    rw [← hl, splitC_joinS l (by simp [hl]) (fun p hp => (h p hp).1), List.filter_eq_self]
    intro p hp; simp [(h p hp).2]

/-- C18: the pieces of the name go to `VarName` or to `SubItems`, in order and unchanged (empty ones vanish). -/
theorem C18_no_piece_is_lost (uid : Nat) (p : Params) (name value op : Str) :
    ∃ v, (mkVariable uid p name value op).payload = .variable v ∧
      (mkVariable uid p name value op).delim = Spec.delimiter p.newStyle name ∧
      ∀ d first rest, d = Spec.delimiter p.newStyle name → Pieces d name (first :: rest) →
      ∃ vs ss, Distributed (Override first) rest vs ss ∧
        v.varName = joinS [d] ((first :: vs).filter (fun x => !x.isEmpty)) ∧
        v.subItems = ss.filter (fun x => !x.isEmpty) ∧ v.subItem = joinS [d] v.subItems ∧ v.rawVarName = v.varName := by
  refine ⟨_, rfl, ?_, ?_⟩
  · rw [← delimFor_eq]; rfl
  intro d first rest hd hp
  have hd' : delimFor (initDelim p.newStyle) name = d := by rw [hd, delimFor_eq]
  have hp := pieces_unique hp
  refine ⟨rest.filter (fun i => !isOverridePiece first i), rest.filter (isOverridePiece first),
    distributed_filter _ _ (isOverridePiece_iff first) _, ?_, ?_, ?_, rfl⟩
  · simp only [hd', ← hp, List.headD_cons, List.tail_cons, extractLoop_eq, List.singleton_append]
  · simp only [hd', ← hp, List.headD_cons, List.tail_cons, extractLoop_eq, List.nil_append]
    apply splitNE_joinS
    intro q hq
    have hq' := List.mem_filter.1 hq
    have hq'' := (List.mem_filter.1 hq'.1).1
    refine ⟨splitC_no_sep (s := name) (by rw [← hp]; exact List.mem_cons_of_mem _ hq''), by simpa using hq'.2⟩
  · simp only [hd', ← hp, List.headD_cons, List.tail_cons, extractLoop_eq, List.nil_append]
    rw [splitNE_joinS]
    intro q hq
    have hq' := List.mem_filter.1 hq
    have hq'' := (List.mem_filter.1 hq'.1).1
    refine ⟨splitC_no_sep (s := name) (by rw [← hp]; exact List.mem_cons_of_mem _ hq''), by simpa using hq'.2⟩

/-- C17: `BASE:o1:...:on` splits into `BASE` and `[o1, ..., on]`. -/
theorem C17_overrides_split_off (uid : Nat) (p : Params) (base : Str) (os : List Str) (value op : Str)
    (hb : ':' ∉ base) (hpkg : base ≠ c!"pkg") (hos : os ≠ [])
    (ho : ∀ o ∈ os, ':' ∉ o ∧ ∃ c t, o = c :: t ∧ OverrideChar c) :
    ∃ v, (mkVariable uid p (joinS [':'] (base :: os)) value op).payload = .variable v ∧
      (mkVariable uid p (joinS [':'] (base :: os)) value op).delim = ':' ∧
      v.varName = base ∧ v.subItems = os ∧ v.subItem = joinS [':'] os ∧
      varNameComplete ':' v = joinS [':'] (base :: os) := by
  obtain ⟨v, h1, h2, h3⟩ := C18_no_piece_is_lost uid p (joinS [':'] (base :: os)) value op
  have hc : ':' ∈ joinS [':'] (base :: os) := by
    cases os with
    | nil => exact absurd rfl hos
    | cons o r => rw [joinS_cons _ _ _ (by simp)]; simp
  have hd : Spec.delimiter p.newStyle (joinS [':'] (base :: os)) = ':' := by simp [Spec.delimiter, hc]
  have hpieces : Pieces ':' (joinS [':'] (base :: os)) (base :: os) := by
    refine ⟨by simp, rfl, ?_⟩
    intro q hq; rcases List.mem_cons.1 hq with rfl | hq
    · exact hb
    · exact (ho q hq).1
  obtain ⟨vs, ss, hdist, hv, hs, hsub, _⟩ := h3 ':' base os hd.symm hpieces
  have hall : Distributed (Override base) os [] os := by
    clear hos hc hd hpieces hdist hv hs hsub h1 h2 h3
    induction os with
    | nil => exact .nil
    | cons o r ih =>
      refine .right (Or.inl ⟨hpkg, ?_⟩) (ih (fun q hq => ho q (by simp [hq])))
      obtain ⟨_, c, t, rfl, hc⟩ := ho o (by simp)
      refine ⟨c, t.takeWhile (fun c => c != '-'), ?_, hc⟩
      have : c ≠ '-' := by rintro rfl; revert hc; simp [OverrideChar]
      simp [beforeDash, this]
  obtain ⟨rfl, rfl⟩ := distributed_unique hdist hall
  have hne : ss.filter (fun x => !x.isEmpty) = ss := by
    rw [List.filter_eq_self]; intro o h; obtain ⟨_, c, t, rfl, _⟩ := ho o h; rfl
  rw [hne] at hs
  have hbn : v.varName = base := by
    rw [hv]; cases base <;> simp [joinS]
  refine ⟨v, h1, by rw [h2, hd], hbn, hs, by rw [hsub, hs], ?_⟩
  unfold varNameComplete
  rw [hbn, hs]

example : ∃ v, (mkVariable 0 ⟨1, [], 1, false, [], [], []⟩ c!"FILES:foo-dev:append" c!"\"x\"" c!" = ").payload = .variable v ∧
    v.varName = c!"FILES" ∧ v.subItems = [c!"foo-dev", c!"append"] := by
  obtain ⟨v, h⟩ := C17_overrides_split_off 0 ⟨1, [], 1, false, [], [], []⟩ c!"FILES" [c!"foo-dev", c!"append"] c!"\"x\"" c!" = "
    (by decide) (by decide) (by decide) (by simp [OverrideChar])
  exact ⟨v, h.1, h.2.2.1, h.2.2.2.1⟩

/-! ## C19 -/

theorem joinS_cons_joinS (d : Char) (a b : List Str) (ha : a ≠ []) :
    joinS [d] (joinS [d] a :: b) = joinS [d] (a ++ b) := by
  induction a with
  | nil => exact absurd rfl ha
  | cons x t ih =>
    cases t with
    | nil => rfl
    | cons y r =>
      have ih := ih (by simp)
      cases b with
      | nil => simp [joinS]
      | cons z w =>
        rw [joinS_cons _ _ _ (by simp)] at ih ⊢
        rw [joinS_cons _ x _ (by simp), List.cons_append, joinS_cons _ x _ (by simp), ← ih]
        simp

/-- C19, partial: if no piece of the name occurs twice, `FuncName` and `SubItems` divide the pieces at the first override or
behind a known function name, and `FuncNameComplete` is the name up to empty pieces. Missing: names with repeated pieces, for which
it is false. -/
theorem C19_function_names_recompose_partial (known : Str → Bool) (uid : Nat) (p : Params) (name body : Str)
    (py fr : Option Str) (d : Char) (ps : List Str)
    (hd : d = Spec.delimiter p.newStyle (stripP pySpace name)) (hp : Pieces d (stripP pySpace name) ps) (hn : ps.Nodup)
    (hne : ps.headD [] ≠ []) (hanon : stripP pySpace name ≠ c!"__anonymous") :
    ∃ f a b, (mkFunction known uid p (some name) body py fr).payload = .function f ∧
      (mkFunction known uid p (some name) body py fr).delim = d ∧ FirstFuncSplit known d ps a b ∧
      f.funcName = joinS [d] (a.filter (fun x => !x.isEmpty)) ∧ f.subItems = b.filter (fun x => !x.isEmpty) ∧
      f.subItem = joinS [d] f.subItems ∧
      funcNameComplete d f = joinS [d] (ps.filter (fun x => !x.isEmpty)) := by
  have hd' : delimFor (initDelim p.newStyle) (stripP pySpace name) = d := by rw [hd, delimFor_eq]
  have hp' := pieces_unique hp
  obtain ⟨x, r, hx⟩ : ∃ x r, ps = x :: r := by
    cases ps with
    | nil => exact absurd rfl hp.1
    | cons x r => exact ⟨x, r, rfl⟩
  have hs := extractFuncLoop_spec known d ps r [x] (by simp) (by simp [hx]) hn (by
    intro a' b' _ h1 h2
    cases a' with
    | nil => exact absurd rfl h1
    | cons => simp at h2)
  generalize hE : extractFuncLoop known d ps r [x] = E at hs
  have hes : extractSubFunc known (initDelim p.newStyle) (stripP pySpace name) =
      (d, joinS [d] (E.1.filter (fun x => !x.isEmpty)), joinS [d] (E.2.filter (fun x => !x.isEmpty))) := by
    unfold extractSubFunc
    simp only [hd', ← hp', beq_iff_eq, hanon, if_false]
    rw [hx, List.headD_cons, List.tail_cons, ← hx, hE]
  have hsub : splitNE d (joinS [d] (E.2.filter (fun x => !x.isEmpty))) = E.2.filter (fun x => !x.isEmpty) := by
    apply splitNE_joinS
    intro q hq
    have hq' := List.mem_filter.1 hq
    refine ⟨hp.2.2 q ?_, by simpa using hq'.2⟩
    rw [hs.1]; exact List.mem_append_right _ hq'.1
  obtain ⟨raw, hm⟩ : ∃ raw, mkFunction known uid p (some name) body py fr = mkItemD uid p d (.function
      { isPython := py.isSome, isFakeroot := fr.isSome, funcName := joinS [d] (E.1.filter (fun x => !x.isEmpty)),
        subItem := joinS [d] (E.2.filter (fun x => !x.isEmpty)), subItems := E.2.filter (fun x => !x.isEmpty),
        funcBody := body, funcBodyRaw := raw }) :=
    ⟨_, by simp only [mkFunction, Option.getD_some, hes, hsub]; rfl⟩
  rw [hm]
  refine ⟨_, E.1, E.2, rfl, rfl, hs, rfl, rfl, rfl, ?_⟩
  · simp only [funcNameComplete]
    rw [joinS_cons_joinS, ← List.filter_append, ← hs.1]
    intro h0
    rw [List.filter_eq_nil_iff] at h0
    have : x ∈ E.1 := by
      have h1 := hs.1
      rw [hx] at h1
      cases he : E.1 with
      | nil => exact absurd he hs.2.1
      | cons y t => rw [he] at h1; cases h1; simp
    have := h0 x this
    simp at this
    rw [hx] at hne
    exact hne this

example : ∃ f, (mkFunction (fun s => s == c!"do_install") 0 ⟨1, [], 1, false, [], [], []⟩ (some c!"do_install_append_foo ") [] none
    none).payload = .function f ∧ f.funcName = c!"do_install" ∧ f.subItems = [c!"append", c!"foo"] ∧
    funcNameComplete '_' f = c!"do_install_append_foo" := ⟨_, rfl, by decide, by decide, by decide⟩
example : Pieces '_' (stripP pySpace c!"do_install_append_foo ") [c!"do", c!"install", c!"append", c!"foo"] := by
  refine ⟨by decide, by decide, by decide⟩

/-- C19 is false: with a repeated piece `FuncNameComplete` is not the name. -/
theorem C19_counterexample :
    ∃ f, (mkFunction (fun _ => false) 0 ⟨1, [], 1, false, [], [], []⟩ (some c!"append_foo_append") [] none none).payload = .function f ∧
      funcNameComplete '_' f = c!"append_foo_append_foo_append" := ⟨_, rfl, by decide⟩

/-! ## C20 -/

/-- the append/prepend operators -/
def Spec.appendOperators : List Str := [c!"+=", c!"=+", c!".=", c!"=."]

/-- C20: `IsAppend`, `AppendOperation`, `IsImmediateModify` and the two complete names agree. -/
theorem C20_modifiers_agree (d : Char) (v : VarData) :
    (varIsAppend v = true ↔ stripP pySpace v.varOp ∈ Spec.appendOperators ∨ c!"append" ∈ v.subItems ∨ c!"prepend" ∈ v.subItems) ∧
    (varIsAppend v = true ↔ ∃ x ∈ appendOperation v, x ≠ c!"remove") ∧
    (∀ x, x ∈ appendOperation v ↔ (x = v.varOp ∧ stripP pySpace v.varOp ∈ Spec.appendOperators) ∨
      (x ∈ [c!"append", c!"prepend", c!"remove"] ∧ x ∈ v.subItems)) ∧
    (isImmediateModify v = true ↔ ∀ x ∈ [c!"append", c!"prepend", c!"remove"], x ∉ v.subItems) ∧
    (∃ kept gone, Distributed (· ∈ [c!"append", c!"prepend", c!"remove"]) v.subItems kept gone ∧
      varNameComplete d v = joinS [d] (v.varName :: v.subItems) ∧
      varNameCompleteNoModifiers d v = joinS [d] (v.varName :: kept)) := by
  have h1 : varIsAppend v = true ↔ stripP pySpace v.varOp ∈ Spec.appendOperators ∨ c!"append" ∈ v.subItems ∨ c!"prepend" ∈ v.subItems := by
    simp [varIsAppend, appendOps, Spec.appendOperators, or_assoc]
    grind
  have h3 : ∀ x, x ∈ appendOperation v ↔ (x = v.varOp ∧ stripP pySpace v.varOp ∈ Spec.appendOperators) ∨
      (x ∈ [c!"append", c!"prepend", c!"remove"] ∧ x ∈ v.subItems) := by
    intro x
    have ite : ∀ (b : Bool) (a : Str), x ∈ (if b = true then [a] else []) ↔ x = a ∧ b = true := by
      intro b a; cases b <;> simp
    unfold appendOperation
    simp only [List.mem_append, ite]
    simp [Spec.appendOperators]
    grind
  refine ⟨h1, ?_, h3, ?_, ?_⟩
  · rw [h1]
    constructor
    · rintro (h | h | h)
      · refine ⟨v.varOp, (h3 _).2 (Or.inl ⟨rfl, h⟩), fun he => ?_⟩
        rw [he] at h; revert h; decide
      · exact ⟨_, (h3 _).2 (Or.inr ⟨by simp, h⟩), by decide⟩
      · exact ⟨_, (h3 _).2 (Or.inr ⟨by simp, h⟩), by decide⟩
    · rintro ⟨x, hx, hne⟩
      rcases (h3 x).1 hx with ⟨_, h⟩ | ⟨hm, h⟩
      · exact Or.inl h
      · simp only [List.mem_cons, List.not_mem_nil, or_false] at hm
        rcases hm with rfl | rfl | rfl
        · exact Or.inr (Or.inl h)
        · exact Or.inr (Or.inr h)
        · exact absurd rfl hne
  · simp only [isImmediateModify, modifierNames]
    simp only [Bool.not_eq_true', List.any_eq_false, List.contains_iff_mem]
    constructor
    · intro h x hx hm; exact h x hm (by simp at hx ⊢; grind)
    · intro h x hx hm; exact h x (by simp at hm ⊢; grind) hx
  · refine ⟨_, _, distributed_filter _ (fun x => modifierNames.contains x) ?_ _, rfl, rfl⟩
    intro x; simp [modifierNames]; grind

example : varIsAppend ⟨c!"A", c!"append", [c!"append"], [], c!" = ", c!"A"⟩ = true ∧
    appendOperation ⟨c!"A", c!"append", [c!"append"], [], c!" = ", c!"A"⟩ = [c!"append"] ∧
    varIsAppend ⟨c!"A", [], [], [], c!" = ", c!"A"⟩ = false := by decide

/-! ## C21 -/

/-- C21: `VarValueStripped` of a quoted value with white space around it is the value; it never starts or ends in a quote. -/
theorem C21_var_value_stripped (v : VarData) :
    (∀ l r val, v.varValue = l ++ ('"' :: val ++ ['"']) ++ r → (∀ c ∈ l, pySpace c = true) → (∀ c ∈ r, pySpace c = true) →
      val.head? ≠ some '"' → val.getLast? ≠ some '"' → varValueStripped v = val) ∧
    (varValueStripped v).head? ≠ some '"' ∧ (varValueStripped v).getLast? ≠ some '"' := by
  refine ⟨?_, ?_, ?_⟩
  · intro l r val hv hl hr hh ht
    unfold varValueStripped
    rw [hv, stripP, List.append_assoc, lstripP_append_all _ _ hl]
    have : lstripP pySpace ('"' :: val ++ ['"'] ++ r) = '"' :: val ++ ['"'] ++ r := by
      simp [lstripP, show pySpace '"' = false from by decide]
    rw [this, rstripP_append_all _ _ hr, rstripP_concat_not _ _ (by decide)]
    cases val with
    | nil => decide
    | cons x t =>
      have hx : x ≠ '"' := by simpa using hh
      have : lstripP (· == '"') ('"' :: (x :: t) ++ ['"']) = (x :: t) ++ ['"'] := by simp [lstripP, hx]
      rw [this, rstripP_append_all _ _ (by simp)]
      obtain ⟨y, s, hys⟩ : ∃ s y, x :: t = s ++ [y] := ⟨_, _, (List.dropLast_append_getLast (by simp : x :: t ≠ [])).symm⟩
      rw [hys] at ht ⊢
      rw [rstripP_concat_not]
      simpa using ht
  · intro h
    unfold varValueStripped at h
    generalize stripP pySpace v.varValue = s at h
    have hp := rstripP_prefix (· == '"') (lstripP (· == '"') s)
    have hh : (lstripP (· == '"') s).head? = some '"' := by
      obtain ⟨u, hu⟩ := hp
      rw [← hu]; rw [List.head?_append, h]; rfl
    unfold lstripP at hh
    have := List.head?_dropWhile_not (· == '"') s
    rw [hh] at this; simp at this
  · intro h
    unfold varValueStripped at h
    generalize (lstripP (· == '"') _) = s at h
    unfold rstripP at h
    rw [List.getLast?_reverse] at h
    have := List.head?_dropWhile_not (· == '"') s.reverse
    rw [h] at this; simp at this

example : varValueStripped ⟨c!"A", [], [], c!" \"a \\\"b c\"\n", c!" = ", c!"A"⟩ = c!"a \\\"b c" :=
  (C21_var_value_stripped _).1 c!" " c!"\n" c!"a \\\"b c" (by decide) (by decide) (by decide) (by decide) (by decide)

/-! ## C24 -/

/-- names that are not machines (variables) -/
def Spec.notMachine : List Str :=
  [c!"append", c!"prepend", c!"class-native", c!"class-nativesdk", c!"class-cross", c!"class-target", c!"remove", c!"machine"]

/-- C24: the machine, distro and class entries are the first override of their kind, or empty if there is none. (For functions
`class-nativesdk` counts as a machine.) -/
theorem C24_entries (v : VarData) (f : FuncData) (distros : Str → Bool) :
    FirstOr (fun x => x ∉ Spec.notMachine) v.subItems (varMachineEntry v) ∧
    FirstOr (fun x => x ∉ Spec.notMachine ∨ x = c!"class-nativesdk") f.subItems (funcMachineEntry f) ∧
    FirstOr (fun x => x ∈ [c!"class-native", c!"class-nativesdk", c!"class-cross", c!"class-target"]) v.subItems
      (getClassOverride v) ∧
    FirstOr (fun x => distros x = true) v.subItems (getDistroEntry distros v.subItems) ∧
    FirstOr (fun x => distros x = true) f.subItems (getDistroEntry distros f.subItems) := by
  refine ⟨FirstOr.congr (firstWhere_spec _ _) ?_, FirstOr.congr (firstWhere_spec _ _) ?_, FirstOr.congr (firstWhere_spec _ _) ?_, filter_headD_spec _ _,
    filter_headD_spec _ _⟩
  · intro x; simp [Spec.notMachine, varNotMachine]
  · intro x; simp [Spec.notMachine, funcNotMachine]; grind
  · intro x; simp [classOverrides]

/-- The sub items of a parsed name are never empty, so an empty entry means that there is none of the kind. -/
theorem C24_empty_means_none (uid : Nat) (p : Params) (name value op : Str) (v : VarData)
    (h : (mkVariable uid p name value op).payload = .variable v) : [] ∉ v.subItems := by
  unfold mkVariable at h
  simp only [mkItemD, Payload.variable.injEq] at h
  rw [← h]
  simp [splitNE]

example : varMachineEntry ⟨c!"A", c!"append:qemu:foo", [c!"append", c!"qemu", c!"foo"], [], c!" = ", c!"A"⟩ = c!"qemu" := by decide

/-! ## C25 -/

/-- C25: `Before`/`After` of an added task and the items of an `EXPORT_FUNCTIONS` are the blank separated words;
`get_items_unaliased` prefixes each with the name of the class file. -/
theorem C25_words (uid : Nat) (p : Params) (name : Str) (before after comment : Option Str) (origin funcs : Str) :
    (∃ b a, (mkTaskAdd uid p name before after comment).payload = .taskAdd name b a (comment.getD []) ∧
      Words (· = ' ') (before.getD []) b ∧ Words (· = ' ') (after.getD []) a) ∧
    (∀ ws, Words (· = ' ') funcs ws → exportsItems funcs = ws ∧
      exportsUnaliased origin funcs = ws.map (fun w => (splitext (basename origin)).1 ++ c!"-" ++ w)) ∧
    (∃ ws, Words (· = ' ') funcs ws) := by
  refine ⟨⟨_, _, rfl, splitNE_words _ _, splitNE_words _ _⟩, ?_, ⟨_, splitNE_words _ _⟩⟩
  intro ws h
  have : exportsItems funcs = ws := words_unique (splitNE_words ' ' funcs) h
  exact ⟨this, by simp [exportsUnaliased, this]⟩

example : Words (· = ' ') c!" a  bc " [c!"a", c!"bc"] := by
  have := splitNE_words ' ' c!" a  bc "
  rwa [show splitNE ' ' c!" a  bc " = [c!"a", c!"bc"] from by decide] at this

end Oelint

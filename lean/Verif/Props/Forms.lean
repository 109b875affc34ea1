import Verif.Lemmas.Forms4
import Verif.Lemmas.Sample
import Verif.Props.Statements
/-! The other single statements: C67-C75. In all of them `joined it.raw` is the text of the item after the replacement of inline
blocks, without line breaks and with ESC for backslashes. -/
set_option linter.unusedSectionVars false
namespace Oelint
section
variable [Uni]
open Spec

variable (W : World) (n : Nat) (path : Str) (off : Int) (forced : Option Str) (s s' : Stash) (res : List Item)

/-! ## C67

Full statement: every line that sets a flag becomes a `FlagAssignment`. False for flags with characters that are not in the list of
the pattern, like `+` (`C67_counterexample`). -/

/-- C67, partial: a line that sets a flag becomes a `FlagAssignment` with the name, the flag, the operator with the blanks around it
and the value as they were written. Missing: flags with other characters than those of `FlagChar`. -/
theorem C67_flag_assignment_partial (h : addFile W n path off forced s = (.ok res, s')) (it : Item) (hi : it ∈ res)
    (name flag ws1 op ws2 val : Str) (hl : FlagLine (joined it.raw) name flag ws1 op ws2 val) :
    it.payload = .flagAssignment name flag val (ws1 ++ (op ++ ws2)) ∧ stripP pySpace (ws1 ++ (op ++ ws2)) = op ∧
      it.getItems = [name, flag, ws1 ++ (op ++ ws2), stripP (· == '"') val] := by
  obtain ⟨fuel, l, p, s1, s2, d, it0, hc, hpl, -, -⟩ := item_of_joined h hi
  rw [classify_flag _ _ _ _ _ _ hl] at hc
  simp only [Prod.mk.injEq, Except.ok.injEq] at hc
  obtain ⟨⟨rfl, -⟩, -⟩ := hc
  have hp : it.payload = .flagAssignment name flag val (ws1 ++ (op ++ ws2)) := by rw [← hpl]; rfl
  refine ⟨hp, strip_blanks (fun c hc => (hl.blanks1 c hc).1) (fun c hc => (hl.blanks2 c hc).1) hl.op, ?_⟩
  unfold Item.getItems; rw [hp]

/-! ## C68

Full statement: `export NAME = VALUE` becomes an `Export` with that name and value. False for values in single quotes and for other
operators (`C68_counterexample`), which end up in the name. -/

/-- C68, partial: `export NAME = "VALUE"` becomes an `Export` with the name and the value, `export NAME` one with an empty value.
Missing: values in single quotes, values with a `=` in front of a quote, other operators. -/
theorem C68_export_partial (h : addFile W n path off forced s = (.ok res, s')) (it : Item) (hi : it ∈ res) (ws name : Str) (hws : Gap ws)
    (hn : name ≠ []) (hnc : ∀ c ∈ name, NameChar c) :
    (∀ ws1 ws2 val tail, Blanks ws1 → Blanks ws2 → PlainValue val → '"' ∉ tail →
      joined it.raw = c!"export" ++ (ws ++ (name ++ (ws1 ++ ('=' :: (ws2 ++ ('"' :: (val ++ ('"' :: tail)))))))) →
      it.payload = .export name val ∧ it.getItems = [name, val]) ∧
    (∀ tail, Blanks tail → joined it.raw = c!"export" ++ (ws ++ (name ++ tail)) → it.payload = .export name [] ∧ it.getItems = [name, []]) := by
  obtain ⟨fuel, l, p, s1, s2, d, it0, hc, hpl, -, -⟩ := item_of_joined h hi
  have hnl := joined_no_newline it.raw
  have hstrip : ∀ t : Str, Blanks t → stripP pySpace (name ++ t) = name := fun t ht =>
    strip_trailing (fun c hc => nameChar_not_pySpace (hnc c hc)) (fun c hc => (ht c hc).1) hn
  constructor
  · intro ws1 ws2 val tail h1 h2 hv ht e
    rw [e] at hc hnl
    have hp := classify_exportWval hws hn hnc h1 h2 hv ⟨ht, fun hx => hnl (by simp [hx])⟩ hc
    rw [hstrip _ h1, hpl] at hp
    exact ⟨hp, by unfold Item.getItems; rw [hp]⟩
  · intro tail ht e
    rw [e] at hc hnl
    have hq : '"' ∉ c!"export" ++ (ws ++ (name ++ tail)) := by
      simp only [List.mem_append, not_or]
      refine ⟨by decide, ?_, ?_, ?_⟩
      · intro hx; rcases hws.2 _ hx with h | h <;> exact absurd h (by decide)
      · intro hx; exact absurd (hnc _ hx) (by decide)
      · intro hx; exact absurd (ht _ hx).1 (by decide)
    have hp := classify_exportWoval (rest := name ++ tail) hws (by simp [hn]) (by
      obtain ⟨x, u, rfl⟩ := List.exists_cons_of_ne_nil hn
      intro c hc
      simp at hc
      subst hc
      have hx := hnc x (by simp)
      exact ⟨(nameChar_not_space hx).1, (nameChar_ne_paren hx).1⟩) (fun hx => hnl (by simp [List.mem_append.1 hx])) (not_wval_quote hq) hc
    rw [hstrip _ ht, hpl] at hp
    exact ⟨hp, by unfold Item.getItems; rw [hp]⟩

/-! ## C69

Full statement: `def NAME(...):` becomes a `PythonBlock` with that name. False for names with capital letters
(`C69_counterexample`). -/

/-- C69, partial: a python function whose name has small letters, digits, `_` and `-` becomes a `PythonBlock` with that name.
Missing: names with other characters. -/
theorem C69_python_function_partial (h : addFile W n path off forced s = (.ok res, s')) (it : Item) (hi : it ∈ res) (ws name ws2 rest : Str)
    (hws : Gap ws) (hn : name ≠ [] ∧ ∀ c ∈ name, DefChar c) (h2 : Tabs ws2) (hc : c!"):" <:+: rest)
    (e : joined it.raw = c!"def" ++ (ws ++ (name ++ (ws2 ++ ('(' :: rest))))) :
    it.payload = .pythonBlock name ∧ Pieces '\n' it.raw it.getItems := by
  obtain ⟨fuel, l, p, s1, s2, d, it0, hcl, hpl, -, -⟩ := item_of_joined h hi
  have hnl := joined_no_newline it.raw
  rw [e] at hcl hnl
  have hp := classify_python hws hn h2 (fun hx => hnl (by simp [hx])) hc hcl
  rw [hpl] at hp
  refine ⟨hp, ?_⟩
  unfold Item.getItems
  rw [hp]
  exact pieces_splitC _ _

/-! ## C70

Full statement: a function definition becomes a `Function` with the given flags, name and body. False for names that start with
`python` or `fakeroot` (`C70_counterexample`). -/

/-- C70, partial: a function definition becomes a `Function` with `IsPython`, `IsFakeroot` and the body as written. If no piece of the
name occurs twice and the first is not empty, `FuncNameComplete` is the name without empty pieces, and `IsAppend` holds if one of the
other pieces is `append` or `prepend`. Missing: names that start with `python` or `fakeroot`; pieces that occur twice (C19). -/
theorem C70_function_partial (h : addFile W n path off forced s = (.ok res, s')) (it : Item) (hi : it ∈ res)
    (flags name ws1 ws2 ws3 body tail : Str) (py fr : Bool) (hf : FuncText (joined it.raw) flags name ws1 ws2 ws3 body tail py fr) :
    ∃ f, it.payload = .function f ∧ f.isPython = py ∧ f.isFakeroot = fr ∧ f.funcBody = body ∧
      (it.delim = ':' ∨ it.delim = '_' ∧ ':' ∉ name) ∧
      (∀ ps, Pieces it.delim name ps → ps.Nodup → ps.headD [] ≠ [] → name ≠ c!"__anonymous" →
        funcNameComplete it.delim f = joinS [it.delim] (ps.filter (fun x => !x.isEmpty)) ∧
        ([] ∉ ps → funcNameComplete it.delim f = name) ∧
        (funcIsAppend f = true ↔ c!"append" ∈ ps.tail ∨ c!"prepend" ∈ ps.tail)) ∧
      (name = [] ∨ name = c!"__anonymous" → f.funcName = name ∧ f.subItems = [] ∧ funcIsAppend f = false) := by
  obtain ⟨fuel, l, p, s1, s2, d, it0, hcl, hpl, hdl, -⟩ := item_of_joined h hi
  have hnl := joined_no_newline it.raw
  rw [hf.eq] at hcl hnl
  obtain ⟨known, uid, nm, py', fr', rfl, hnm, hpy, hfr⟩ := classify_func hf.flags hf.chars hf.noflag hf.anon hf.blanks.1 hf.blanks.2.1
    hf.blanks.2.2 (fun hx => hnl (by simp [hx])) hf.tail hcl
  rw [mkFunction_getD, hnm] at hpl hdl
  have hstrip : stripP pySpace name = name := strip_of_none (fun c hc => funcChar_not_pySpace (hf.chars c hc))
  have hd : it.delim = Spec.delimiter p.newStyle name := by
    rw [← hdl, mkFunction_delimiter, Option.getD_some, hstrip]
  obtain ⟨f, hpf, hf1, hf2, hf3⟩ : ∃ f, it.payload = .function f ∧ f.isPython = py ∧ f.isFakeroot = fr ∧ f.funcBody = body := by
    rw [← hpl]
    exact ⟨_, rfl, hpy, hfr, rfl⟩
  refine ⟨f, hpf, hf1, hf2, hf3, ?_, ?_, ?_⟩
  · rw [hd, delimiter]
    by_cases hx : p.newStyle = true ∨ ':' ∈ name
    · rw [if_pos hx]; exact Or.inl rfl
    · rw [if_neg hx]; exact Or.inr ⟨rfl, fun hh => hx (Or.inr hh)⟩
  · intro ps hps hnd hne han
    obtain ⟨f', a, b, g1, -, g3, -, g5, -, g7⟩ := C19_function_names_recompose_partial known uid p name body py' fr' it.delim ps
      (by rw [hstrip, hd]) (by rw [hstrip]; exact hps) hnd hne (by rw [hstrip]; exact han)
    rw [hpl, hpf] at g1
    cases g1
    refine ⟨g7, ?_, ?_⟩
    · intro hem
      rw [g7, List.filter_eq_self.2, hps.2.1]
      intro x hx
      cases x with
      | nil => exact absurd hx hem
      | cons => rfl
    · rw [← append_in_tail g3 (x := c!"append") (by decide), ← append_in_tail g3 (x := c!"prepend") (by decide)]
      unfold funcIsAppend
      rw [g5]
      simp only [List.any_eq_true, List.mem_filter, List.contains_iff_mem, List.mem_cons, List.not_mem_nil, or_false]
      constructor
      · rintro ⟨x, ⟨hx, -⟩, rfl | rfl⟩
        · exact Or.inl hx
        · exact Or.inr hx
      · rintro (hx | hx)
        · exact ⟨_, ⟨hx, rfl⟩, Or.inl rfl⟩
        · exact ⟨_, ⟨hx, rfl⟩, Or.inr rfl⟩
  · intro hname
    have : f.funcName = name ∧ f.subItems = [] := by
      rw [← hpl] at hpf
      unfold mkFunction at hpf
      rw [Option.getD_some, hstrip] at hpf
      rcases hname with rfl | rfl
      · cases hs : p.newStyle <;> rw [hs] at hpf <;> cases hpf <;> exact ⟨rfl, rfl⟩
      · cases hs : p.newStyle <;> rw [hs] at hpf <;> cases hpf <;> exact ⟨rfl, rfl⟩
    refine ⟨this.1, this.2, ?_⟩
    unfold funcIsAppend
    rw [this.2]; rfl

/-! ## C71

Full statement: `FuncBodyRaw` is the body without its indentation. False if the name contains `{` or the body ends with `}`
(`C71_counterexample`). -/

/-- C71, partial: `FuncBodyRaw` is the body without its indentation and the items of the function are its lines. Missing: names with
`{`, bodies that end with `}`. -/
theorem C71_body_partial (h : addFile W n path off forced s = (.ok res, s')) (it : Item) (hi : it ∈ res)
    (flags name ws1 ws2 ws3 body tail : Str) (py fr : Bool) (hf : FuncText it.raw flags name ws1 ws2 ws3 body tail py fr)
    (hbr : '{' ∉ name) (hend : body.getLast? ≠ some '}') (ht : ∀ c ∈ tail, pySpace c = true) :
    ∃ f, it.payload = .function f ∧ f.funcBody = joined body ∧ Dedented body f.funcBodyRaw ∧ Pieces '\n' f.funcBodyRaw it.getItems := by
  obtain ⟨fuel, l, p, s1, s2, d, it0, hcl, hpl, hdl, hraw⟩ := item_of_joined h hi
  have hkeep : ∀ u : Str, (∀ c ∈ u, c ≠ '\n' ∧ c ≠ '\\') → joined u = u := by
    intro u hu
    unfold joined
    rw [List.filter_eq_self.2 (by intro c hc; simp [(hu c hc).1])]
    have : u.map (fun c => if c = '\\' then '\x1b' else c) = u.map id := List.map_congr_left (fun c hc => by rw [if_neg (hu c hc).2]; rfl)
    rw [this, List.map_id]
  have happ : ∀ a b : Str, joined (a ++ b) = joined a ++ joined b := by intro a b; simp [joined]
  have hcons : ∀ (c : Char) (b : Str), c ≠ '\n' → c ≠ '\\' → joined (c :: b) = c :: joined b := by
    intro c b h1 h2; simp [joined, h1, h2]
  have htabs : ∀ u : Str, Tabs u → ∀ c ∈ u, c ≠ '\n' ∧ c ≠ '\\' := by
    intro u hu c hc
    rcases hu c hc with rfl | rfl <;> decide
  have hflag : ∀ c ∈ flags, c ≠ '\n' ∧ c ≠ '\\' ∧ c ≠ '{' := by
    have := hf.flags
    clear hf
    induction this with
    | none => simp
    | python hws _ ih =>
      intro c hc
      simp only [List.mem_append] at hc
      rcases hc with hc | hc | hc
      · revert c; decide
      · rcases hws c hc with rfl | rfl <;> decide
      · exact ih c hc
    | fakeroot hws _ ih =>
      intro c hc
      simp only [List.mem_append] at hc
      rcases hc with hc | hc | hc
      · revert c; decide
      · rcases hws c hc with rfl | rfl <;> decide
      · exact ih c hc
  have hname : ∀ c ∈ name, c ≠ '\n' ∧ c ≠ '\\' := by
    intro c hc
    exact ⟨(funcChar_not_space (hf.chars c hc)).2.2.1, (funcChar_not_space (hf.chars c hc)).2.2.2⟩
  have hj : joined it.raw = flags ++ (name ++ (ws1 ++ ('(' :: (ws2 ++ (')' :: (ws3 ++ ('{' :: (joined body ++ ('}' :: joined tail))))))))) := by
    rw [hf.eq, happ, hkeep flags (fun c hc => ⟨(hflag c hc).1, (hflag c hc).2.1⟩), happ, hkeep name hname, happ, hkeep ws1 (htabs _ hf.blanks.1),
      hcons _ _ (by decide) (by decide), happ, hkeep ws2 (htabs _ hf.blanks.2.1), hcons _ _ (by decide) (by decide), happ,
      hkeep ws3 (htabs _ hf.blanks.2.2), hcons _ _ (by decide) (by decide), happ, hcons _ _ (by decide) (by decide)]
  have hnl := joined_no_newline it.raw
  rw [hj] at hcl hnl
  have htail : '}' ∉ joined tail := by
    intro hx
    simp only [joined, List.mem_map, List.mem_filter] at hx
    obtain ⟨c, ⟨hc, -⟩, e⟩ := hx
    split at e
    · exact absurd e (by decide)
    · subst e; exact hf.tail hc
  obtain ⟨known, uid, nm, py', fr', rfl, hnm, hpy, hfr⟩ := classify_func hf.flags hf.chars hf.noflag hf.anon hf.blanks.1 hf.blanks.2.1
    hf.blanks.2.2 (fun hx => hnl (by simp [hx])) htail hcl
  have hrt : p.rawtext = it.raw := hraw
  have hno : '{' ∉ flags ++ (name ++ (ws1 ++ ('(' :: (ws2 ++ (')' :: ws3))))) := by
    have ht' : ∀ u, Tabs u → '{' ∉ u := by
      intro u hu hx; rcases hu _ hx with h | h <;> exact absurd h (by decide)
    simp only [List.mem_append, List.mem_cons, not_or]
    exact ⟨fun hx => (hflag _ hx).2.2 rfl, hbr, ht' _ hf.blanks.1, by decide, ht' _ hf.blanks.2.1, by decide, ht' _ hf.blanks.2.2⟩
  have hsplit : it.raw = (flags ++ (name ++ (ws1 ++ ('(' :: (ws2 ++ (')' :: ws3)))))) ++ '{' :: (body ++ ('}' :: tail)) := by
    rw [hf.eq]; simp
  have hfind := dropFirst (b := body ++ ('}' :: tail)) hno
  rw [← hsplit, ← hrt] at hfind
  have hdrop : p.rawtext.drop ((flags ++ (name ++ (ws1 ++ ('(' :: (ws2 ++ (')' :: ws3)))))).length + 1) = body ++ ('}' :: tail) := by
    rw [hrt, hsplit, ← List.drop_drop, List.drop_left]; rfl
  have hstr : rstripP (oneOf c!"}") (rstripP pySpace (body ++ ('}' :: tail))) = body := by
    rw [show body ++ ('}' :: tail) = (body ++ ['}']) ++ tail by simp, rstripP_append_all _ _ ht, rstripP_concat_not _ _ (by decide),
      rstripP_append_all _ _ (by decide)]
    rcases List.eq_nil_or_concat body with rfl | ⟨b, c, rfl⟩
    · rfl
    · rw [List.concat_eq_append] at hend ⊢
      rw [rstripP_concat_not]
      simp at hend
      simp [oneOf, hend]
  have hpl' := hpl
  unfold mkFunction at hpl'
  simp only [hfind, hdrop, hstr] at hpl'
  refine ⟨_, hpl'.symm, rfl, dedent_spec body, ?_⟩
  unfold Item.getItems
  rw [← hpl']
  exact pieces_splitC _ _

/-! ## C72

Full statement: the `Include` for `require FILE` has the name `FILE`. False if the name has characters that are not in the list of the
pattern, like `+` (`C72_counterexample`). -/

/-- C72, partial: `include` and `require` give an `Include` with the name and the statement as written, unless the expanded name is to
be ignored. Missing: names with other characters than those of `IncChar`. -/
theorem C72_include_partial (h : addFile W n path off forced s = (.ok res, s')) (it : Item) (hi : it ∈ res) (stmt ws name tail : Str)
    (hs : stmt = c!"include" ∨ stmt = c!"require") (hws : Gap ws) (hn : name ≠ []) (hc : ∀ c ∈ name, IncChar c)
    (ht : ∀ c ∈ tail.head?, ¬ IncChar c) (e : joined it.raw = stmt ++ (ws ++ (name ++ tail))) :
    ((∃ file, it.payload = .include name file stmt) ∧ it.getItems = [name, stmt]) ∨
      ∃ s1 nm ign, expandTerm W s1 (abspath W.cwd path) name = .ok nm ∧ includeIgnore s1.consts = .ok ign ∧ ign.has nm = true := by
  obtain ⟨fuel, l, p, s1, s2, d, it0, hcl, hpl, -, -⟩ := item_of_joined h hi
  rw [e] at hcl
  rcases classify_includes hs hws hn hc ht hcl with ⟨f, hp⟩ | ⟨nm, ign, h1⟩
  · rw [hpl] at hp
    exact Or.inl ⟨⟨f, hp⟩, by unfold Item.getItems; rw [hp]⟩
  · exact Or.inr ⟨s1, nm, ign, h1⟩

/-! ## C73 -/

/-- C73: `inherit`, `inherit_defer` and assignments to `INHERIT` give an `Inherit` with the statement and the names as written, and its
items are the words of the names. -/
theorem C73_inherit (h : addFile W n path off forced s = (.ok res, s')) (it : Item) (hi : it ∈ res) :
    (∀ stmt ws names, stmt = c!"inherit" ∨ stmt = c!"inherit_defer" → Gap ws → names ≠ [] →
      (∀ c ∈ names.head?, reSpace c = false ∧ c ≠ '(') → joined it.raw = stmt ++ (ws ++ names) →
      (∃ found, it.payload = .inherit stmt names found) ∧ Tokens names it.getItems) ∧
    (∀ ws1 op ws2 q names q' tail, op ∈ operators → Blanks ws1 → Blanks ws2 → q = '\'' ∨ q = '"' → q' = '\'' ∨ q' = '"' →
      '\'' ∉ tail ∧ '"' ∉ tail → joined it.raw = c!"INHERIT" ++ (ws1 ++ (op ++ (ws2 ++ (q :: (names ++ (q' :: tail)))))) →
      (∃ found, it.payload = .inherit c!"INHERIT" names found) ∧ Tokens names it.getItems) := by
  obtain ⟨fuel, l, p, s1, s2, d, it0, hcl, hpl, -, -⟩ := item_of_joined h hi
  have hnl := joined_no_newline it.raw
  have hitems : ∀ {st names : Str} {found : List Str}, it.payload = .inherit st names found → Tokens names it.getItems := by
    intro st names found hp
    unfold Item.getItems
    rw [hp]
    exact safeLinesplit_iff.1 rfl
  constructor
  · intro stmt ws names hs hws hn hh e
    rw [e] at hcl hnl
    obtain ⟨f, hp⟩ := classify_inherit hs hws hn hh (fun hx => hnl (by simp [hx])) hcl
    rw [hpl] at hp
    exact ⟨⟨f, hp⟩, hitems hp⟩
  · intro ws1 op ws2 q names q' tail hop h1 h2 hq hq' ht e
    rw [e] at hcl hnl
    obtain ⟨pre, post, rfl, hisop⟩ := opText_isOp (val := names ++ (q' :: tail)) hop h1 h2 hq
    have e2 : c!"INHERIT" ++ (ws1 ++ ((pre ++ '=' :: post) ++ (ws2 ++ (q :: (names ++ (q' :: tail)))))) =
        c!"INHERIT" ++ (ws1 ++ (pre ++ '=' :: (post ++ (ws2 ++ (q :: (names ++ (q' :: tail))))))) := by simp
    rw [e2] at hcl
    obtain ⟨f, hp⟩ := classify_inheritGlob hisop hq hq' (fun hx => hnl (by simp [hx])) ht hcl
    rw [hpl] at hp
    exact ⟨⟨f, hp⟩, hitems hp⟩

/-! ## C74 -/

/-- C74: `EXPORT_FUNCTIONS`, `include_all` and `addfragments` give items with the names as written. The items of `EXPORT_FUNCTIONS` are
the words between the blanks, with the name of the class in front of them if they are asked for unaliased. -/
theorem C74_names_as_written (h : addFile W n path off forced s = (.ok res, s')) (it : Item) (hi : it ∈ res) (ws : Str) (hws : Gap ws) :
    (∀ names, names ≠ [] → (∀ c ∈ names.head?, reSpace c = false ∧ c ≠ '(') → joined it.raw = c!"EXPORT_FUNCTIONS" ++ (ws ++ names) →
      it.payload = .functionExports names ∧ Words (· = ' ') names it.getItems ∧
      ∀ dir cls ext, it.origin = dir ++ c!"/" ++ (cls ++ '.' :: ext) → '/' ∉ cls → '/' ∉ ext → '.' ∉ ext → (∃ c ∈ cls, c ≠ '.') →
        exportsUnaliased it.origin names = it.getItems.map (fun f => cls ++ c!"-" ++ f)) ∧
    (∀ f, f ≠ [] → (∀ c ∈ f.head?, reSpace c = false ∧ c ≠ '(') → joined it.raw = c!"include_all" ++ (ws ++ f) →
      it.payload = .includeAll f ∧ it.getItems = [f]) ∧
    (∀ a x b y c, (a ≠ [] ∧ ∀ d ∈ a, reSpace d = false) → a.head? ≠ some '(' → (b ≠ [] ∧ ∀ d ∈ b, reSpace d = false) →
      (c ≠ [] ∧ ∀ d ∈ c, reSpace d = false) → reSpace x = true → reSpace y = true →
      joined it.raw = c!"addfragments" ++ (ws ++ (a ++ (x :: (b ++ (y :: c))))) →
      it.payload = .addFragements a b c ∧ it.getItems = [a, b, c]) := by
  obtain ⟨fuel, l, p, s1, s2, d, it0, hcl, hpl, -, -⟩ := item_of_joined h hi
  have hnl := joined_no_newline it.raw
  refine ⟨?_, ?_, ?_⟩
  · intro names hn hh e
    rw [e] at hcl hnl
    have hp := classify_exportFunc hws hn hh (fun hx => hnl (by simp [hx])) hcl
    rw [hpl] at hp
    have hg : it.getItems = splitNE ' ' names := by unfold Item.getItems; rw [hp]; rfl
    refine ⟨hp, by rw [hg]; exact splitNE_words ' ' names, ?_⟩
    intro dir cls ext ho h1 h2 h3 h4
    unfold exportsUnaliased
    rw [ho, basename_file (by simp [h1, h2]), splitext_base h1 h2 h3 h4, hg]
    rfl
  · intro f hn hh e
    rw [e] at hcl hnl
    have hp := classify_includeall hws hn hh (fun hx => hnl (by simp [hx])) hcl
    rw [hpl] at hp
    exact ⟨hp, by unfold Item.getItems; rw [hp]⟩
  · intro a x b y c ha hpar hb hc hx hy e
    rw [e] at hcl
    have hp := classify_addfragments hws ha hb hc hx hy hpar hcl
    rw [hpl] at hp
    exact ⟨hp, by unfold Item.getItems; rw [hp]⟩

/-! ## C75

Full statement: `addpylib PATH NAMESPACE` becomes an `AddPylib` with that path and namespace. False if there is more than one blank
between them (`C75_counterexample`), all but the last of them belong to the path. -/

/-- C75, partial: for a path below `${LAYERDIR}/` and one blank in front of the namespace. Missing: more than one blank. -/
theorem C75_addpylib_partial (h : addFile W n path off forced s = (.ok res, s')) (it : Item) (hi : it ∈ res) (ws q ns : Str) (b : Char)
    (hws : Gap ws) (hq : q ≠ []) (hb : b = ' ' ∨ b = '\t') (hns : ∀ c ∈ ns, reSpace c = false)
    (e : joined it.raw = c!"addpylib" ++ (ws ++ (c!"${LAYERDIR}/" ++ (q ++ (b :: ns))))) :
    it.payload = .addPylib (c!"${LAYERDIR}/" ++ q) ns ∧ it.getItems = [c!"${LAYERDIR}/" ++ q, ns] := by
  obtain ⟨fuel, l, p, s1, s2, d, it0, hcl, hpl, -, -⟩ := item_of_joined h hi
  have hnl := joined_no_newline it.raw
  rw [e] at hcl hnl
  have hp := classify_addpylib (ws2 := [b]) hws hq (fun hx => hnl (by simp [hx])) ⟨by simp, by simpa using hb⟩ hns hcl
  rw [hpl] at hp
  simp only [List.dropLast_singleton, List.append_nil] at hp
  exact ⟨hp, by unfold Item.getItems; rw [hp]⟩

end

/-! ## counterexamples -/

attribute [local instance] Sample.asciiUni

/-- the payloads of the items of `/w/a_1.bb` with the given text -/
def formsOf (text : Str) : Except PyErr (List Item) × Stash :=
  addFile (Sample.world [(c!"/w/a_1.bb", text)]) 3 c!"/w/a_1.bb" 0 none Sample.stash

/-- a property of the only item of the recipe with the given text -/
def Claim (P : Str → Payload → Prop) : Prop :=
  ∀ (W : World) (n : Nat) (path : Str) (s s' : Stash) (res : List Item) (text : Str),
    addFile W n path 0 none s = (.ok res, s') → alreadySeen s (abspath W.cwd path) = false →
    W.file (abspath W.cwd path) = .text (text ++ c!"\n") → ∀ it ∈ res, it.raw = text ++ c!"\n" → P text it.payload

theorem claim_false {P : Str → Payload → Prop} (text : Str) (pl : Payload)
    (h : Sample.okAnd (formsOf (text ++ c!"\n")) (fun res => decide (res.map (fun i => (i.raw, i.payload)) = [(text ++ c!"\n", pl)])) = true)
    (hf : alreadySeen Sample.stash (abspath c!"/w" c!"/w/a_1.bb") = false := by decide +kernel) (hP : ¬ P text pl) : ¬ Claim P := by
  intro hall
  obtain ⟨res, s', h1, h2⟩ := Sample.okAnd_iff.1 h
  have h2 := of_decide_eq_true h2
  obtain ⟨it, rfl⟩ : ∃ it, res = [it] := by
    have hl := congrArg List.length h2
    rw [List.length_map] at hl
    exact List.length_eq_one_iff.1 hl
  simp at h2
  have := hall (Sample.world [(c!"/w/a_1.bb", text ++ c!"\n")]) 3 c!"/w/a_1.bb" Sample.stash s' [it] text h1 hf rfl it (by simp) h2.1
  rw [h2.2] at this
  exact hP this

open Spec

/-- C67 as stated is false: `A[b+] = "c"` is no flag assignment. -/
theorem C67_counterexample : ¬ Claim (fun text pl => ∀ name flag op val, AssignName name → flag ≠ [] → ']' ∉ flag → op ∈ operators →
    text = name ++ ('[' :: (flag ++ (']' :: (c!" " ++ (op ++ (c!" " ++ val)))))) → ∃ o, pl = .flagAssignment name flag val o) := by
  refine claim_false c!"A[b+] = \"c\"" .item (by decide +kernel) (hP := ?_)
  intro h
  obtain ⟨o, e⟩ := h c!"A" c!"b+" c!"=" c!"\"c\"" ⟨by decide, by decide, by decide, by decide, by intro k hk; simp at hk⟩ (by decide) (by decide) (by decide) rfl
  cases e

/-- C68 as stated is false: a value in single quotes becomes part of the name, … -/
theorem C68_counterexample : ¬ Claim (fun text pl => ∀ name val, name ≠ [] → (∀ c ∈ name, NameChar c) → (∀ c ∈ val, NameChar c) →
    text = c!"export " ++ (name ++ (c!" = '" ++ (val ++ c!"'"))) → ∃ v, pl = .export name v) := by
  refine claim_false c!"export A = 'x'" (.export c!"A = 'x'" []) (by decide +kernel) (hP := ?_)
  intro h
  obtain ⟨o, e⟩ := h c!"A" c!"x" (by decide) (by decide) (by decide) rfl
  cases e

/-- … and so does the first half of the operator `?=`. -/
theorem C68_counterexample_operator : ¬ Claim (fun text pl => ∀ name val, name ≠ [] → (∀ c ∈ name, NameChar c) → (∀ c ∈ val, NameChar c) →
    text = c!"export " ++ (name ++ (c!" ?= \"" ++ (val ++ c!"\""))) → pl = .export name val) := by
  refine claim_false c!"export A ?= \"x\"" (.export c!"A ?" c!"x") (by decide +kernel) (hP := ?_)
  intro h
  cases h c!"A" c!"x" (by decide) (by decide) (by decide) rfl

/-- C69 as stated is false: `def myFunc(d):` is no python function. -/
theorem C69_counterexample : ¬ Claim (fun text pl => ∀ name, name ≠ [] → (∀ c ∈ name, c.isAlpha = true) →
    text = c!"def " ++ (name ++ c!"(d):\n    return 1") → pl = .pythonBlock name) := by
  refine claim_false c!"def myFunc(d):\n    return 1" .item (by decide +kernel) (hP := ?_)
  intro h
  cases h c!"myFunc" (by decide) (by decide) rfl

/-- C70 as stated is false: the first part of a name that starts with `python` is taken for the flag. -/
theorem C70_counterexample : ¬ Claim (fun text pl => ∀ name, name ≠ [] → (∀ c ∈ name, FuncChar c) →
    text = name ++ c!" () {\n  x\n}" → ∃ f, pl = .function f ∧ f.isPython = false) := by
  refine claim_false c!"python_pep517_do_compile () {\n  x\n}" (.function
    ⟨true, false, c!"pep517_do_compile", [], [], c!"  x", c!"\nx\n"⟩) (by decide +kernel) (hP := ?_)
  intro h
  obtain ⟨f, e, h2⟩ := h c!"python_pep517_do_compile" (by decide) (by decide) rfl
  cases e
  cases h2

/-- C71 as stated is false: with `${PN}` in the name `FuncBodyRaw` starts within the name. -/
theorem C71_counterexample : ¬ Claim (fun text pl => ∀ name, name ≠ [] → (∀ c ∈ name, FuncChar c) →
    text = name ++ c!" () {\n  x\n}" → ∃ f, pl = .function f ∧ f.funcBodyRaw = c!"\nx\n") := by
  refine claim_false c!"pkg_postinst:${PN} () {\n  x\n}" (.function
    ⟨false, false, c!"pkg_postinst:${PN}", [], [], c!"  x", c!"PN} () {\n  x\n"⟩) (by decide +kernel) (hP := ?_)
  intro h
  obtain ⟨f, e, h2⟩ := h c!"pkg_postinst:${PN}" (by decide) (by decide) rfl
  cases e
  revert h2
  decide

/-- C72 as stated is false: `require gtk+.inc` is said to include `gtk`. -/
theorem C72_counterexample : ¬ Claim (fun text pl => ∀ name, name ≠ [] → (∀ c ∈ name, reSpace c = false) → text = c!"require " ++ name →
    ∃ file, pl = .include name file c!"require") := by
  refine claim_false c!"require gtk+.inc" (.include c!"gtk" [] c!"require") (by decide +kernel) (hP := ?_)
  intro h
  obtain ⟨f, e⟩ := h c!"gtk+.inc" (by decide) (by decide) rfl
  cases e

/-- C75 as stated is false: of two blanks in front of the namespace one belongs to the path. -/
theorem C75_counterexample : ¬ Claim (fun text pl => ∀ ws q ns, Gap ws → (∀ c ∈ q, NameChar c) → (∀ c ∈ ns, NameChar c) →
    text = c!"addpylib ${LAYERDIR}/" ++ (q ++ (ws ++ ns)) → pl = .addPylib (c!"${LAYERDIR}/" ++ q) ns) := by
  refine claim_false c!"addpylib ${LAYERDIR}/lib  ns" (.addPylib c!"${LAYERDIR}/lib " c!"ns") (by decide +kernel) (hP := ?_)
  intro h
  cases h c!"  " c!"lib" c!"ns" (by unfold Gap; decide) (by decide) (by decide) rfl

/-! ## the hypotheses can be met -/

/-- one of each kind, a class -/
def formsText : Str :=
  c!"A[b-c] ?= \"c\"\nexport A = \"x \\\ny\"\nexport B \ndef my_func(d):\n    return 1\n\npython do_b:append () {\n    if x:\n      y\n\n    z\n}\nrequire a/b-${PN}.inc\ninherit c d \\\n  e\nINHERIT += \"f g\"\nEXPORT_FUNCTIONS do_a  do_b\ninclude_all x.inc\naddfragments a b c\naddpylib ${LAYERDIR}/lib ns\n"

def formsWorld : World := Sample.world [(c!"/w/a.bbclass", formsText)]

/-- the sample is parsed and its items have the texts the theorems ask for -/
theorem forms_run : ∃ res s', addFile formsWorld 3 c!"/w/a.bbclass" 0 none Sample.stash = (.ok res, s') ∧
    res.map (fun i => joined i.raw) = [c!"A[b-c] ?= \"c\"", c!"export A = \"x \x1by\"", c!"export B ", c!"def my_func(d):    return 1",
      c!"python do_b:append () {    if x:      y    z}", c!"require a/b-${PN}.inc", c!"inherit c d \x1b  e", c!"INHERIT += \"f g\"",
      c!"EXPORT_FUNCTIONS do_a  do_b", c!"include_all x.inc", c!"addfragments a b c", c!"addpylib ${LAYERDIR}/lib ns"] := by
  obtain ⟨res, s', h, hp⟩ := Sample.okAnd_iff.1 (show Sample.okAnd (addFile formsWorld 3 c!"/w/a.bbclass" 0 none Sample.stash)
    (fun res => decide (res.map (fun i => joined i.raw) = [c!"A[b-c] ?= \"c\"", c!"export A = \"x \x1by\"", c!"export B ", c!"def my_func(d):    return 1",
      c!"python do_b:append () {    if x:      y    z}", c!"require a/b-${PN}.inc", c!"inherit c d \x1b  e", c!"INHERIT += \"f g\"",
      c!"EXPORT_FUNCTIONS do_a  do_b", c!"include_all x.inc", c!"addfragments a b c", c!"addpylib ${LAYERDIR}/lib ns"])) = true by decide +kernel)
  exact ⟨res, s', h, of_decide_eq_true hp⟩

/-- C67 -/
example : FlagLine c!"A[b-c] ?= \"c\"" c!"A" c!"b-c" c!" " c!"?=" c!" " c!"\"c\"" :=
  ⟨rfl, ⟨by decide, by decide, by decide, by decide, by intro k hk; simp at hk⟩, by decide, by decide, by unfold Blanks; decide,
    by unfold Blanks; decide, by decide, by decide⟩

/-- C68 -/
example : PlainValue c!"x \x1by" := by
  refine ⟨by decide, ?_⟩
  intro a bl b e
  have : '=' ∈ c!"x \x1by" := by rw [e]; simp
  exact absurd this (by decide)

/-- C70, C71 -/
example : FuncText c!"python do_b:append () {\n    if x:\n      y\n\n    z\n}\n" c!"python " c!"do_b:append" c!" " [] c!" " c!"\n    if x:\n      y\n\n    z\n" c!"\n" true false :=
  ⟨by decide, FuncFlags.python (ws := c!" ") (t := []) (by unfold Tabs; decide) .none, by decide, by decide, by decide,
    by unfold Tabs; decide, by decide⟩

/-- C71: what is meant by "without its indentation" -/
example : Dedented c!"\n    if x:\n      y\n\n    z\n" c!"\nif x:\n  y\n\nz\n" := dedent_spec _

end Oelint

import Verif.Lemmas.Recipe
import Verif.Props.Forms
import Verif.Props.Chunks
import Verif.Props.Tokens
/-! C76: a recipe that is written statement by statement reads back as those statements, with the documented classifier, attributes and
items. -/
set_option linter.unusedSectionVars false
namespace Oelint
section
variable [Uni]
open Spec

/-- the value of the property with the given name, as `GetAttributes` returns it -/
def Item.has (it : Item) (name : Str) (a : Attr) : Prop := dget name it.getAttributes = some a

/-- what a user finds for a statement: the classifier, the properties, the result of `get_items` -/
def ReadsAs (it : Item) : Stmt → Prop
  | .blank _ => it.payload.classifier = c!"Item" ∧ it.getItems = []
  | .comment _ => it.payload.classifier = c!"Comment" ∧ Pieces '\n' it.raw it.getItems
  | .assign name ws1 op ws2 val => it.payload.classifier = c!"Variable" ∧
      it.has c!"VarOp" (.str (ws1 ++ (op ++ ws2))) ∧ it.has c!"VarValue" (.str val) ∧
      (∀ x, val = '"' :: x ++ ['"'] → x.head? ≠ some '"' → x.getLast? ≠ some '"' → it.has c!"VarValueStripped" (.str x)) ∧
      (∃ x, Trimmed (· = '"') val x ∧ Tokens x it.getItems) ∧
      ∃ d, (d = ':' ∨ d = '_' ∧ ':' ∉ name) ∧ it.has c!"OverrideDelimiter" (.str [d]) ∧
        ∀ first rest, Pieces d name (first :: rest) → ∃ vs ss vn, Distributed (Override first) rest vs ss ∧
          vn = joinS [d] ((first :: vs).filter (fun x => !x.isEmpty)) ∧ it.has c!"VarName" (.str vn) ∧ it.has c!"RawVarName" (.str vn) ∧
          it.has c!"SubItems" (.strs (ss.filter (fun x => !x.isEmpty))) ∧
          it.has c!"SubItem" (.str (joinS [d] (ss.filter (fun x => !x.isEmpty)))) ∧
          it.has c!"VarNameComplete" (.str (joinS [d] (vn :: ss.filter (fun x => !x.isEmpty)))) ∧
          ∃ kept gone, Distributed (· ∈ [c!"append", c!"prepend", c!"remove"]) (ss.filter (fun x => !x.isEmpty)) kept gone ∧
            it.has c!"VarNameCompleteNoModifiers" (.str (joinS [d] (vn :: kept)))
  | .flag name fl ws1 op ws2 val => it.payload.classifier = c!"FlagAssignment" ∧
      it.has c!"VarName" (.str name) ∧ it.has c!"Flag" (.str fl) ∧ it.has c!"VarOp" (.str (ws1 ++ (op ++ ws2))) ∧ it.has c!"Value" (.str val) ∧
      ∃ x, Trimmed (· = '"') val x ∧ it.has c!"ValueStripped" (.str x) ∧ it.getItems = [name, fl, ws1 ++ (op ++ ws2), x]
  | .addtask _ task _ cmt bs as => it.payload.classifier = c!"TaskAdd" ∧
      it.has c!"FuncName" (.str task) ∧ it.has c!"Before" (.strs bs) ∧ it.has c!"After" (.strs as) ∧ it.has c!"Comment" (.str cmt) ∧
      it.getItems = task :: (bs ++ as)
  | .deltask _ task _ cmt => it.payload.classifier = c!"TaskDel" ∧
      it.has c!"FuncName" (.str task) ∧ it.has c!"Comment" (.str cmt) ∧ it.getItems = [task]
  | .exportValue _ name _ _ val _ => it.payload.classifier = c!"Export" ∧
      it.has c!"Name" (.str name) ∧ it.has c!"Value" (.str val) ∧ it.getItems = [name, val]
  | .exportName _ name _ => it.payload.classifier = c!"Export" ∧
      it.has c!"Name" (.str name) ∧ it.has c!"Value" (.str []) ∧ it.getItems = [name, []]
  | .function _ name _ _ _ body _ py fr => it.payload.classifier = c!"Function" ∧
      it.has c!"IsPython" (.bool py) ∧ it.has c!"IsFakeroot" (.bool fr) ∧ it.has c!"FuncBody" (.str body) ∧
      (∃ x, Trimmed (fun c => pySpace c = true) (body.filter (fun c => c ∉ ['{', '}', '\n'])) x ∧ it.has c!"FuncBodyStripped" (.str x)) ∧
      ∃ d, (d = ':' ∨ d = '_' ∧ ':' ∉ name) ∧ it.has c!"OverrideDelimiter" (.str [d]) ∧
        ∀ ps, Pieces d name ps → ps.Nodup → ps.headD [] ≠ [] → name ≠ c!"__anonymous" →
          it.has c!"FuncNameComplete" (.str (joinS [d] (ps.filter (fun x => !x.isEmpty))))
  | .pythonDef _ name _ _ => it.payload.classifier = c!"PythonBlock" ∧ it.has c!"FuncName" (.str name) ∧ Pieces '\n' it.raw it.getItems
  | .exportFunctions _ names => it.payload.classifier = c!"FunctionExports" ∧
      it.has c!"FuncNames" (.str names) ∧ Words (· = ' ') names it.getItems
  | .includeAll _ file => it.payload.classifier = c!"IncludeAll" ∧ it.has c!"File" (.str file) ∧ it.getItems = [file]
  | .addFragments _ a _ b _ c => it.payload.classifier = c!"AddFragements" ∧
      it.has c!"Path" (.str a) ∧ it.has c!"Variable" (.str b) ∧ it.has c!"Flagged" (.str c) ∧ it.getItems = [a, b, c]
  | .addPylib _ path _ ns => it.payload.classifier = c!"AddPylib" ∧
      it.has c!"Path" (.str (c!"${LAYERDIR}/" ++ path)) ∧ it.has c!"Namespace" (.str ns) ∧ it.getItems = [c!"${LAYERDIR}/" ++ path, ns]
  | .inherit stmt _ names => it.payload.classifier = c!"Inherit" ∧
      it.has c!"Class" (.str names) ∧ it.has c!"Statement" (.str stmt) ∧ Tokens names it.getItems
  | .inheritGlobal _ _ _ _ names _ _ => it.payload.classifier = c!"Inherit" ∧
      it.has c!"Class" (.str names) ∧ it.has c!"Statement" (.str c!"INHERIT") ∧ Tokens names it.getItems

theorem quotes_trimmed (v : Str) : Trimmed (· = '"') v (stripP (oneOf c!"\"") v) := by
  have := strip_trimmed (oneOf c!"\"") v
  simpa [oneOf, Trimmed] using this

theorem quote_trimmed (v : Str) : Trimmed (· = '"') v (stripP (· == '"') v) := by
  have := strip_trimmed (· == '"') v
  simpa [Trimmed] using this

/-- a property of a variable -/
theorem has_var {it : Item} {v : VarData} (h : it.payload = .variable v) :
    it.has c!"VarName" (.str v.varName) ∧ it.has c!"SubItem" (.str v.subItem) ∧ it.has c!"SubItems" (.strs v.subItems) ∧
    it.has c!"VarValue" (.str v.varValue) ∧ it.has c!"VarOp" (.str v.varOp) ∧
    it.has c!"VarNameComplete" (.str (varNameComplete it.delim v)) ∧
    it.has c!"VarNameCompleteNoModifiers" (.str (varNameCompleteNoModifiers it.delim v)) ∧ it.has c!"RawVarName" (.str v.rawVarName) ∧
    it.has c!"VarValueStripped" (.str (varValueStripped v)) ∧ it.has c!"OverrideDelimiter" (.str [it.delim]) := by
  simp [Item.has, Item.getAttributes, baseAttributes, ownAttributes, h, dget]

variable (W : World) (n : Nat) (path : Str) (off : Int) (forced : Option Str) (s s' : Stash) (res : List Item)

/-- C76: an item whose text is that of a statement is what is said about that statement. -/
theorem C76_statement (h : addFile W n path off forced s = (.ok res, s')) (it : Item) (hi : it ∈ res) (st : Stmt)
    (e : joined it.raw = st.text) (hok : st.Ok) : ReadsAs it st := by
  cases st with
  | blank ws =>
    obtain ⟨fuel, l, p, s1, s2, d, it0, hc, hpl, -, -⟩ := item_of_joined h hi
    rw [e] at hc
    have hp := classify_blank hok hc
    rw [hpl] at hp
    refine ⟨by rw [hp]; rfl, ?_⟩
    unfold Item.getItems
    rw [hp]
    exact blank_items (by rw [e]; exact hok)
  | comment txt =>
    have hp : it.payload = .comment := by
      obtain ⟨fuel, l, p, s1, s2, d, it0, hc, hpl, -, -⟩ := item_of_joined h hi
      rw [e] at hc
      rw [← hpl, classify_comment hc]
      exact ⟨[], txt, rfl, by simp⟩
    refine ⟨by rw [hp]; rfl, ?_⟩
    unfold Item.getItems
    rw [hp]
    exact pieces_splitC _ _
  | assign name ws1 op ws2 val =>
    have hl : Assignment (joined it.raw) name ws1 op ws2 val := by rw [e]; exact hok
    obtain ⟨fuel, l, p, s1, s2, d, it0, hc, hpl, hdl, -⟩ := item_of_joined h hi
    rw [classify_assigns _ _ _ _ _ _ hl] at hc
    simp only [Prod.mk.injEq, Except.ok.injEq] at hc
    obtain ⟨⟨rfl, -⟩, -⟩ := hc
    obtain ⟨v, h1, h2, h3⟩ := C18_no_piece_is_lost s1.nextUid p name val (ws1 ++ (op ++ ws2))
    rw [hdl] at h2
    have hv : v.varOp = ws1 ++ (op ++ ws2) ∧ v.varValue = val := by
      unfold mkVariable at h1
      simp only [mkItemD, Payload.variable.injEq] at h1
      rw [← h1]; exact ⟨rfl, rfl⟩
    rw [hpl] at h1
    obtain ⟨a1, a2, a3, a4, a5, a6, a7, a8, a9, a10⟩ := has_var h1
    refine ⟨by rw [h1]; rfl, by rw [← hv.1]; exact a5, by rw [← hv.2]; exact a4, ?_, ?_, it.delim, ?_, a10, ?_⟩
    · intro x hx hh ht
      have := (C21_var_value_stripped v).1 [] [] x (by rw [hv.2, hx]; simp) (by simp) (by simp) hh ht
      rw [← this]; exact a9
    · refine ⟨_, quotes_trimmed val, ?_⟩
      unfold Item.getItems
      rw [h1]
      have : varGetItems v [] false = safeLinesplit (stripP (oneOf c!"\"") val) := by
        unfold varGetItems
        rw [hv.2]; rfl
      exact safeLinesplit_iff.1 this.symm
    · rw [h2, delimiter]
      by_cases hx : p.newStyle = true ∨ ':' ∈ name
      · rw [if_pos hx]; exact Or.inl rfl
      · rw [if_neg hx]; exact Or.inr ⟨rfl, fun hh => hx (Or.inr hh)⟩
    · intro first rest hp
      obtain ⟨vs, ss, h4, h5, h6, h7, h8⟩ := h3 it.delim first rest h2 hp
      obtain ⟨-, -, -, -, kept, gone, b1, b2, b3⟩ := C20_modifiers_agree it.delim v
      refine ⟨vs, ss, _, h4, rfl, ?_, ?_, ?_, ?_, ?_, kept, gone, ?_, ?_⟩
      · rw [← h5]; exact a1
      · rw [← h5, ← h8]; exact a8
      · rw [← h6]; exact a3
      · rw [← h6, ← h7]; exact a2
      · rw [← h5, ← h6, ← b2]; exact a6
      · rw [← h6]; exact b1
      · rw [← h5, ← b3]; exact a7
  | flag name fl ws1 op ws2 val =>
    obtain ⟨hp, -, hg⟩ := C67_flag_assignment_partial W n path off forced s s' res h it hi name fl ws1 op ws2 val (by rw [e]; exact hok)
    refine ⟨by rw [hp]; rfl, ?_, ?_, ?_, ?_, _, quote_trimmed val, ?_, hg⟩ <;>
      simp [Item.has, Item.getAttributes, baseAttributes, ownAttributes, hp, dget]
  | addtask ws task cl cmt bs as =>
    obtain ⟨hws, ht, hns, hcl, hcm, hpar⟩ := hok
    obtain ⟨fuel, l, p, s1, s2, d, it0, hc, hpl, -, -⟩ := item_of_joined h hi
    rw [e] at hc
    obtain ⟨m, h1, h2, h3, h4, h5⟩ := reAddtask_match hws.1 (fun c hc => by rcases hws.2 c hc with rfl | rfl <;> decide) ht hcl hcm
    have hv : taskAsVar ((reAddtask.group m c!"func").getD []) = false := by
      rw [h2]
      simp only [taskAsVar, Option.getD_some, List.any_eq_false]
      intro x hx hs
      exact hns x hx (List.isPrefixOf_iff_prefix.1 hs)
    have h6 := classify_addtask (W := W) (add := addFile W fuel) (file := abspath W.cwd path) (lineno := l) (p := p) (s := s1)
      (u := c!"ddtask" ++ (ws ++ (task ++ (cl ++ cmt)))) (m := m) (by
        simp only [List.mem_append, not_or] at hpar ⊢
        refine ⟨by decide, ?_, ?_, hpar⟩
        · intro hx; rcases hws.2 _ hx with h | h <;> exact absurd h (by decide)
        · intro hx; exact absurd (ht.chars _ hx) (by decide)) h1 hv
    have hc' : classify W (addFile W fuel) (abspath W.cwd path) l p ('a' :: (c!"ddtask" ++ (ws ++ (task ++ (cl ++ cmt))))) parseOrder s1 = (.ok (it0, d), s2) := hc
    rw [h6] at hc'
    simp only [Prod.mk.injEq, Except.ok.injEq] at hc'
    obtain ⟨⟨rfl, -⟩, -⟩ := hc'
    have hp : it.payload = .taskAdd task bs as cmt := by
      rw [← hpl]
      show Payload.taskAdd _ (splitNE ' ' _) (splitNE ' ' _) _ = _
      rw [h2, h3, h4, h5]; rfl
    refine ⟨by rw [hp]; rfl, ?_, ?_, ?_, ?_, by unfold Item.getItems; rw [hp]; simp⟩ <;>
      simp [Item.has, Item.getAttributes, baseAttributes, ownAttributes, hp, dget]
  | deltask ws task sp cmt =>
    obtain ⟨hws, ht, hsp, hcm, hpar⟩ := hok
    obtain ⟨fuel, l, p, s1, s2, d, it0, hc, hpl, -, -⟩ := item_of_joined h hi
    rw [e] at hc
    obtain ⟨m, h1, h2, h3⟩ := reDeltask_match hws.1 (fun c hc => by rcases hws.2 c hc with rfl | rfl <;> decide) ht hsp hcm
    have hc' : classify W (addFile W fuel) (abspath W.cwd path) l p (c!"deltask" ++ (ws ++ (task ++ (sp ++ cmt)))) parseOrder s1 = (.ok (it0, d), s2) := hc
    rw [classify_deltask (u := ws ++ (task ++ (sp ++ cmt))) (by
        simp only [List.mem_append, not_or]
        refine ⟨?_, ?_, ?_, hpar⟩
        · intro hx; rcases hws.2 _ hx with h | h <;> exact absurd h (by decide)
        · intro hx; exact absurd (ht.chars _ hx) (by decide)
        · intro hx; exact absurd (hsp _ hx) (by decide)) h1] at hc'
    simp only [Prod.mk.injEq, Except.ok.injEq] at hc'
    obtain ⟨⟨rfl, -⟩, -⟩ := hc'
    have hp : it.payload = .taskDel task cmt := by
      rw [← hpl]
      show Payload.taskDel _ _ = _
      rw [h2, h3]; rfl
    refine ⟨by rw [hp]; rfl, ?_, ?_, by unfold Item.getItems; rw [hp]⟩ <;>
      simp [Item.has, Item.getAttributes, baseAttributes, ownAttributes, hp, dget]
  | exportValue ws name ws1 ws2 val tail =>
    obtain ⟨hws, hn, hnc, h1, h2, hv, ht⟩ := hok
    obtain ⟨hp, hg⟩ := (C68_export_partial W n path off forced s s' res h it hi ws name hws hn hnc).1 ws1 ws2 val tail h1 h2 hv ht e
    refine ⟨by rw [hp]; rfl, ?_, ?_, hg⟩ <;> simp [Item.has, Item.getAttributes, baseAttributes, ownAttributes, hp, dget]
  | exportName ws name tail =>
    obtain ⟨hws, hn, hnc, ht⟩ := hok
    obtain ⟨hp, hg⟩ := (C68_export_partial W n path off forced s s' res h it hi ws name hws hn hnc).2 tail ht e
    refine ⟨by rw [hp]; rfl, ?_, ?_, hg⟩ <;> simp [Item.has, Item.getAttributes, baseAttributes, ownAttributes, hp, dget]
  | function flags name ws1 ws2 ws3 body tail py fr =>
    obtain ⟨f, hp, h1, h2, h3, h4, h5, -⟩ := C70_function_partial W n path off forced s s' res h it hi flags name ws1 ws2 ws3 body tail py fr
      (by rw [e]; exact hok)
    refine ⟨by rw [hp]; rfl, ?_, ?_, ?_, ⟨funcBodyStripped f, ?_, ?_⟩, it.delim, h4, ?_, ?_⟩
    · simp [Item.has, Item.getAttributes, baseAttributes, ownAttributes, hp, dget, h1]
    · simp [Item.has, Item.getAttributes, baseAttributes, ownAttributes, hp, dget, h2]
    · simp [Item.has, Item.getAttributes, baseAttributes, ownAttributes, hp, dget, h3]
    · rw [funcBodyStripped_eq, h3]
      have : (fun c => c != '{' && c != '}' && c != '\n') = (fun c => decide (c ∉ ['{', '}', '\n'])) := by
        funext c
        by_cases a : c = '{' <;> by_cases b : c = '}' <;> by_cases d : c = '\n' <;> simp [a, b, d]
      rw [this]
      exact strip_trimmed _ _
    · simp [Item.has, Item.getAttributes, baseAttributes, ownAttributes, hp, dget]
    · simp [Item.has, Item.getAttributes, baseAttributes, ownAttributes, hp, dget]
    · intro ps a b c d
      rw [← (h5 ps a b c d).1]
      simp [Item.has, Item.getAttributes, baseAttributes, ownAttributes, hp, dget]
  | pythonDef ws name ws1 rest =>
    obtain ⟨hws, hn, h1, h2⟩ := hok
    obtain ⟨hp, hg⟩ := C69_python_function_partial W n path off forced s s' res h it hi ws name ws1 rest hws hn h1 h2 e
    refine ⟨by rw [hp]; rfl, ?_, hg⟩
    simp [Item.has, Item.getAttributes, baseAttributes, ownAttributes, hp, dget]
  | exportFunctions ws names =>
    obtain ⟨hws, h1, h2⟩ := hok
    obtain ⟨hp, hg, -⟩ := (C74_names_as_written W n path off forced s s' res h it hi ws hws).1 names h1 h2 e
    refine ⟨by rw [hp]; rfl, ?_, hg⟩
    simp [Item.has, Item.getAttributes, baseAttributes, ownAttributes, hp, dget]
  | includeAll ws file =>
    obtain ⟨hws, h1, h2⟩ := hok
    obtain ⟨hp, hg⟩ := (C74_names_as_written W n path off forced s s' res h it hi ws hws).2.1 file h1 h2 e
    refine ⟨by rw [hp]; rfl, ?_, hg⟩
    simp [Item.has, Item.getAttributes, baseAttributes, ownAttributes, hp, dget]
  | addFragments ws a x b y c =>
    obtain ⟨hws, h1, h2, h3, h4, h5, h6⟩ := hok
    obtain ⟨hp, hg⟩ := (C74_names_as_written W n path off forced s s' res h it hi ws hws).2.2 a x b y c h1 h2 h3 h4 h5 h6 e
    refine ⟨by rw [hp]; rfl, ?_, ?_, ?_, hg⟩ <;> simp [Item.has, Item.getAttributes, baseAttributes, ownAttributes, hp, dget]
  | addPylib ws q x ns =>
    obtain ⟨hws, h1, h2, h3⟩ := hok
    obtain ⟨hp, hg⟩ := C75_addpylib_partial W n path off forced s s' res h it hi ws q ns x hws h1 h2 h3 e
    refine ⟨by rw [hp]; rfl, ?_, ?_, hg⟩ <;> simp [Item.has, Item.getAttributes, baseAttributes, ownAttributes, hp, dget]
  | inherit stmt ws names =>
    obtain ⟨hs, hws, h1, h2⟩ := hok
    obtain ⟨⟨f, hp⟩, hg⟩ := (C73_inherit W n path off forced s s' res h it hi).1 stmt ws names hs hws h1 h2 e
    refine ⟨by rw [hp]; rfl, ?_, ?_, hg⟩ <;> simp [Item.has, Item.getAttributes, baseAttributes, ownAttributes, hp, dget]
  | inheritGlobal ws1 op ws2 q names q' tail =>
    obtain ⟨hop, h1, h2, hq, hq', ht1, ht2⟩ := hok
    obtain ⟨⟨f, hp⟩, hg⟩ := (C73_inherit W n path off forced s s' res h it hi).2 ws1 op ws2 q names q' tail hop h1 h2 hq hq' ⟨ht1, ht2⟩ e
    refine ⟨by rw [hp]; rfl, ?_, ?_, hg⟩ <;> simp [Item.has, Item.getAttributes, baseAttributes, ownAttributes, hp, dget]

/-- C76: if each group of lines of a file is a statement, the items of the file are those statements, in order, with the documented
classifier, properties and items. -/
theorem C76_recipe (h : addFile W n path off forced s = (.ok res, s')) (hnew : alreadySeen s (abspath W.cwd path) = false) (t : Str)
    (hf : W.file (abspath W.cwd path) = .text t) (ls : List Str) (gs : List (List Str)) (hl : IsLines (univNewlines t) ls) (hg : Groups ls gs)
    (sts : List Stmt) (hst : List.Forall₂ (fun g st => ¬ c!"${@" <:+: g.flatten ∧ joined g.flatten = st.text ∧ st.Ok) gs sts) :
    List.Forall₂ ReadsAs res sts ∧ res.map (·.realRaw) = gs.map List.flatten := by
  have hreal := (C08_chunk_boundaries W n path off forced s s' res t h hnew hf ls gs hl).2 hg
  refine ⟨?_, hreal⟩
  obtain ⟨value, hraw⟩ := C06_raw_from_realraw W n path off forced s s' res t h hnew hf
  have key : ∀ (gs : List (List Str)) (sts : List Stmt) (r : List Item), r ⊆ res → r.map (·.realRaw) = gs.map List.flatten →
      List.Forall₂ (fun g st => ¬ c!"${@" <:+: g.flatten ∧ joined g.flatten = st.text ∧ st.Ok) gs sts → List.Forall₂ ReadsAs r sts := by
    intro gs sts r hr e hst
    induction hst generalizing r with
    | nil =>
      cases r with
      | nil => exact .nil
      | cons => cases e
    | @cons g st gs sts hx _ ih =>
      cases r with
      | nil => cases e
      | cons it r =>
        rw [List.map_cons, List.map_cons, List.cons.injEq] at e
        have hi : it ∈ res := hr (by simp)
        refine .cons ?_ (ih r (fun x hx => hr (by simp [hx])) e.2)
        have hrr := ((hraw it hi).2 (by rw [e.1]; exact hx.1)).1
        exact C76_statement W n path off forced s s' res h it hi st (by rw [hrr, e.1]; exact hx.2.1) hx.2.2
  exact key gs sts res (fun _ hx => hx) hreal hst

/-- C76: a file of statements that take one line each reads back as those statements, whatever they are and however many. -/
theorem C76_one_line_statements (h : addFile W n path off forced s = (.ok res, s')) (hnew : alreadySeen s (abspath W.cwd path) = false)
    (sts : List Stmt) (hf : W.file (abspath W.cwd path) = .text (sts.map (fun st => st.text ++ c!"\n")).flatten)
    (hst : ∀ st ∈ sts, st.Ok ∧ OneLine st.text ∧ ¬ c!"${@" <:+: st.text) :
    List.Forall₂ ReadsAs res sts ∧ res.map (·.realRaw) = sts.map (fun st => st.text ++ c!"\n") := by
  have hr : '\r' ∉ (sts.map (fun st => st.text ++ c!"\n")).flatten := by
    simp only [List.mem_flatten, List.mem_map, not_exists, not_and]
    rintro _ ⟨st, hm, rfl⟩ hc
    simp at hc
    exact ((hst st hm).2.1.chars _ hc).2.1 rfl
  have hl : IsLines (univNewlines (sts.map (fun st => st.text ++ c!"\n")).flatten) (sts.map (fun st => st.text ++ c!"\n")) := by
    rw [univNewlines_id hr]
    refine ⟨rfl, ?_, ?_, ?_⟩
    · simp
    · simp only [List.mem_map]
      rintro _ ⟨st, hm, rfl⟩
      rw [List.dropLast_concat]
      exact fun hc => ((hst st hm).2.1.chars _ hc).1 rfl
    · intro x hx
      obtain ⟨st, hm, rfl⟩ := List.mem_map.1 (List.mem_of_mem_dropLast hx)
      simp
  have hg := groups_single (ls := sts.map (fun st => st.text ++ c!"\n")) (by
    intro x hx
    obtain ⟨st, hm, rfl⟩ := List.mem_map.1 hx
    have hone := (hst st hm).2.1
    refine ⟨?_, hone.noHeader, hone.noComment, hone.noDef⟩
    rintro ⟨a, ws, e, -⟩
    have : '\\' ∈ st.text ++ c!"\n" := by rw [e]; simp
    simp at this
    exact (hone.chars _ this).2.2 rfl)
  have hj : ∀ st ∈ sts, joined (st.text ++ c!"\n") = st.text := by
    intro st hm
    have hone := (hst st hm).2.1.chars
    generalize st.text = u at hone ⊢
    unfold joined
    rw [List.filter_append, List.filter_eq_self.2 (by intro c hc; simp [(hone c hc).1])]
    simp only [List.filter_cons, bne_self_eq_false, Bool.false_eq_true, if_false, List.filter_nil, List.append_nil]
    have : u.map (fun c => if c = '\\' then '\x1b' else c) = u.map id := List.map_congr_left (fun c hc => by rw [if_neg (hone c hc).2.2]; rfl)
    rw [this, List.map_id]
  have hin : ∀ st ∈ sts, ¬ c!"${@" <:+: st.text ++ c!"\n" := by
    intro st hm hh
    obtain ⟨a, b, e⟩ := hh
    refine (hst st hm).2.2 ?_
    rcases List.eq_nil_or_concat b with rfl | ⟨b, c, rfl⟩
    · have := congrArg List.getLast? e
      simp at this
    · rw [List.concat_eq_append, ← List.append_assoc] at e
      have := (List.append_inj' e rfl).1
      exact ⟨a, b, this⟩
  obtain ⟨h1, h2⟩ := C76_recipe W n path off forced s s' res h hnew _ hf _ _ hl hg sts (by
    rw [List.map_map, List.forall₂_map_left_iff, List.forall₂_same]
    intro st hm
    simp only [Function.comp, List.flatten_cons, List.flatten_nil, List.append_nil]
    exact ⟨hin st hm, hj st hm, (hst st hm).1⟩)
  refine ⟨h1, ?_⟩
  rw [h2, List.map_map, List.map_map]
  congr 1
  funext st
  simp

/-! ## C13, C72: what a user finds for `unset` and `include` -/

/-- C13, partial: the classifier, the properties and the items of `unset`. Missing: the same as in `C13_unset_partial`. -/
theorem C13_observed_partial (h : addFile W n path off forced s = (.ok res, s')) (it : Item) (hi : it ∈ res) (ws nl : Str) (c : Char)
    (hws : Blanks ws) (hwn : ws ≠ []) (hc : NameChar c) (hnl : nl = [] ∨ nl = c!"\n") :
    (it.realRaw = c!"unset" ++ (ws ++ [c]) ++ nl → it.payload.classifier = c!"Unset" ∧ it.has c!"VarName" (.str [c]) ∧
      it.has c!"Flag" (.str []) ∧ it.getItems = [[c], []]) ∧
    (∀ flag, (flag ≠ [] ∧ ∀ c ∈ flag, c = '_' ∨ c = '-' ∨ c = '.' ∨ TaskChar c) → it.realRaw = c!"unset" ++ (ws ++ c :: '[' :: (flag ++ c!"]")) ++ nl →
      it.payload.classifier = c!"Unset" ∧ it.has c!"VarName" (.str [c]) ∧ it.has c!"Flag" (.str flag) ∧ it.getItems = [[c], flag]) := by
  constructor
  · intro hr
    have hp := (C13_unset_partial W n path off forced s s' res h it hi ws nl [c] hws hwn ⟨by simp, by simpa using hc⟩ hr hnl).2 rfl
    refine ⟨by rw [hp]; rfl, ?_, ?_, by unfold Item.getItems; rw [hp]⟩ <;>
      simp [Item.has, Item.getAttributes, baseAttributes, ownAttributes, hp, dget]
  · intro flag hf hr
    have hp := C13_unset_flag_partial W n path off forced s s' res h it hi ws nl flag c hws hwn hc hf hr hnl
    refine ⟨by rw [hp]; rfl, ?_, ?_, by unfold Item.getItems; rw [hp]⟩ <;>
      simp [Item.has, Item.getAttributes, baseAttributes, ownAttributes, hp, dget]

/-- C72, partial: the classifier, the properties and the items of `include` and `require`. Missing: the same as in
`C72_include_partial`. -/
theorem C72_observed_partial (h : addFile W n path off forced s = (.ok res, s')) (it : Item) (hi : it ∈ res) (stmt ws name tail : Str)
    (hs : stmt = c!"include" ∨ stmt = c!"require") (hws : Gap ws) (hn : name ≠ []) (hc : ∀ c ∈ name, IncChar c)
    (ht : ∀ c ∈ tail.head?, ¬ IncChar c) (e : joined it.raw = stmt ++ (ws ++ (name ++ tail))) :
    (it.payload.classifier = c!"Include" ∧ it.has c!"IncName" (.str name) ∧ it.has c!"Statement" (.str stmt) ∧ it.getItems = [name, stmt] ∧
      ∃ file, it.has c!"FileIncluded" (.str file) ∧ it.payload = .include name file stmt) ∨
      ∃ s1 nm ign, expandTerm W s1 (abspath W.cwd path) name = .ok nm ∧ includeIgnore s1.consts = .ok ign ∧ ign.has nm = true := by
  rcases C72_include_partial W n path off forced s s' res h it hi stmt ws name tail hs hws hn hc ht e with ⟨⟨f, hp⟩, hg⟩ | hx
  · refine Or.inl ⟨by rw [hp]; rfl, ?_, ?_, hg, f, ?_, hp⟩ <;>
      simp [Item.has, Item.getAttributes, baseAttributes, ownAttributes, hp, dget]
  · exact Or.inr hx

end

/-! ## the hypotheses can be met -/

attribute [local instance] Sample.asciiUni
open Spec

/-- a recipe with one statement of most kinds -/
def Sample.recipe : List Stmt :=
  [ .assign c!"SUMMARY" c!" " c!"=" c!" " c!"\"x y\"", .blank c!" \t", .assign c!"RDEPENDS:${PN}:append" [] c!"+=" [] c!"\"a b\"",
    .flag c!"A" c!"b" c!" " c!"?=" c!" " c!"\"c\"", .deltask c!" " c!"do_b" c!" " c!"# no", .exportName c!" " c!"B" [],
    .includeAll c!" " c!"x.inc", .exportFunctions c!" " c!"do_a do_b", .addPylib c!" " c!"lib" ' ' c!"ns",
    .addFragments c!" " c!"a" ' ' c!"b" ' ' c!"c", .inherit c!"inherit" c!" " c!"c d" ]

/-- the recipe as text -/
def Sample.recipeText : Str := (Sample.recipe.map (fun st => st.text ++ c!"\n")).flatten

theorem oneLine_of_chars {t : Str} (h : ∀ c ∈ t, c ≠ '\n' ∧ c ≠ '\r' ∧ c ≠ '\\' ∧ c ≠ '(') (hc : t.head? ≠ some '#')
    (hd : ¬ c!"def " <+: (t ++ c!"\n").dropWhile pySpace) : OneLine t := by
  refine ⟨fun c hc => ⟨(h c hc).1, (h c hc).2.1, (h c hc).2.2.1⟩, ?_, ?_, ?_⟩
  · rintro ⟨a, w1, w2, b, e, -⟩
    have : '(' ∈ t ++ c!"\n" := by rw [e]; simp
    simp at this
    exact (h _ this).2.2.2 rfl
  · rintro ⟨u, e⟩
    cases t with
    | nil => simp at e
    | cons x t => simp at e hc; exact hc e.1
  · rintro ⟨w, a, x, b, e, hw, -⟩
    apply hd
    rw [e]
    simp only [List.append_assoc]
    rw [List.dropWhile_append_of_pos hw]
    exact ⟨a ++ x :: b, by simp [show pySpace 'd' = false from rfl]⟩

/-- the recipe meets the hypotheses … -/
theorem recipe_ok : ∀ st ∈ Sample.recipe, st.Ok ∧ OneLine st.text ∧ ¬ c!"${@" <:+: st.text := by
  have hin : ∀ st ∈ Sample.recipe, '@' ∉ st.text := by decide +kernel
  have hone : ∀ st ∈ Sample.recipe, (∀ c ∈ st.text, c ≠ '\n' ∧ c ≠ '\r' ∧ c ≠ '\\' ∧ c ≠ '(') ∧ st.text.head? ≠ some '#' ∧
      ¬ c!"def " <+: (st.text ++ c!"\n").dropWhile pySpace := by decide +kernel
  intro st hst
  refine ⟨?_, oneLine_of_chars (hone st hst).1 (hone st hst).2.1 (hone st hst).2.2, ?_⟩
  · have gap : Gap c!" " := ⟨by decide, by decide⟩
    simp only [Sample.recipe, List.mem_cons, List.not_mem_nil, or_false] at hst
    rcases hst with rfl | rfl | rfl | rfl | rfl | rfl | rfl | rfl | rfl | rfl | rfl
    · exact ⟨rfl, ⟨by decide, by decide, by decide, by decide, by intro k hk; simp at hk⟩, by decide, by unfold Blanks; decide, by unfold Blanks; decide, by decide, by decide⟩
    · show Tabs _; unfold Tabs; decide
    · exact ⟨rfl, ⟨by decide, by decide, by decide, by decide, by intro k hk; simp at hk⟩, by decide, by unfold Blanks; decide, by unfold Blanks; decide, by decide, by decide⟩
    · exact ⟨rfl, ⟨by decide, by decide, by decide, by decide, by intro k hk; simp at hk⟩, by decide, by decide, by unfold Blanks; decide, by unfold Blanks; decide, by decide, by decide⟩
    · exact ⟨gap, ⟨by decide, by decide⟩, by decide, Or.inr (by decide), by decide⟩
    · exact ⟨gap, by decide, by decide, by unfold Blanks; decide⟩
    · exact ⟨gap, by decide, by decide⟩
    · exact ⟨gap, by decide, by decide⟩
    · exact ⟨gap, by decide, by decide, by decide⟩
    · exact ⟨gap, ⟨by decide, by decide⟩, by decide, ⟨by decide, by decide⟩, ⟨by decide, by decide⟩, by decide, by decide⟩
    · exact ⟨Or.inl rfl, gap, by decide, by decide⟩
  · rintro ⟨a, b, e⟩
    exact hin st hst (by rw [← e]; simp)

/-- … and is parsed -/
theorem recipe_run : ∃ res s', addFile (Sample.world [(c!"/w/a_1.bb", Sample.recipeText)]) 3 c!"/w/a_1.bb" 0 none Sample.stash = (.ok res, s') := by
  obtain ⟨res, s', h, -⟩ := Sample.okAnd_iff.1 (show Sample.okAnd (addFile (Sample.world [(c!"/w/a_1.bb", Sample.recipeText)]) 3 c!"/w/a_1.bb" 0 none Sample.stash)
    (fun _ => true) = true by decide +kernel)
  exact ⟨res, s', h⟩

/-- C76 on the sample -/
example : ∃ res s', addFile (Sample.world [(c!"/w/a_1.bb", Sample.recipeText)]) 3 c!"/w/a_1.bb" 0 none Sample.stash = (.ok res, s') ∧
    List.Forall₂ ReadsAs res Sample.recipe := by
  obtain ⟨res, s', h⟩ := recipe_run
  exact ⟨res, s', h, (C76_one_line_statements _ _ _ _ _ _ _ _ h (by decide +kernel) Sample.recipe rfl recipe_ok).1⟩

/-- functions, python functions and comments take more than one line: the text of the group, joined -/
example : (Stmt.function [] c!"do_a" c!" " [] c!" " c!"  x" [] false false).Ok ∧
    joined c!"do_a () {\n  x\n}\n" = (Stmt.function [] c!"do_a" c!" " [] c!" " c!"  x" [] false false).text ∧
    (Stmt.pythonDef c!" " c!"f" [] c!"d):    return 1").Ok ∧
    joined c!"def f(d):\n    return 1\n" = (Stmt.pythonDef c!" " c!"f" [] c!"d):    return 1").text := by
  refine ⟨⟨rfl, .none, by decide, by decide, by decide, by unfold Tabs; decide, by decide⟩, by decide,
    ⟨⟨by decide, by decide⟩, ⟨by decide, by decide⟩, by unfold Tabs; decide, ⟨c!"d", c!"    return 1", rfl⟩⟩, by decide⟩

/-- C13, C72: the items of `stmtWorld` (`stmt_run`) and `formsWorld` (`forms_run`) have texts of this kind -/
example : c!"unset B[fl-ag]\n" = c!"unset" ++ (c!" " ++ 'B' :: '[' :: (c!"fl-ag" ++ c!"]")) ++ c!"\n" ∧
    c!"require a/b-${PN}.inc" = c!"require" ++ (c!" " ++ (c!"a/b-${PN}.inc" ++ [])) ∧ ∀ c ∈ c!"a/b-${PN}.inc", IncChar c := by decide

end Oelint

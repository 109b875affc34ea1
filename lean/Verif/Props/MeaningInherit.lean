import Verif.Spec.MeaningInherit
import Verif.Props.MeaningInclude
/-! C120: the values of a recipe that inherits a class follow from the two texts. -/
set_option linter.unusedSectionVars false
namespace Oelint
section
variable [Uni]
open Spec

theorem classFound_unique {W : World} {d n q p : Str} (h : ClassFound W d n q) (hp : findClass W d (withBbclass n) [c!"classes", c!"classes-recipe", c!"classes-global"] = .ok p) : p = q ∧ q ≠ [] := by
  obtain ⟨f, h1, h2⟩ := h
  have hf : f = withBbclass n := by
    rcases h1 with ⟨h1, rfl⟩ | ⟨h1, rfl⟩
    · rw [withBbclass, if_pos (endsWith_iff.2 h1)]
    · rw [withBbclass, if_neg (fun hh => h1 (endsWith_iff.1 hh))]
  subst hf
  obtain ⟨a1, a2⟩ := findClass_spec _ hp
  by_cases hne : p = []
  · exact absurd h2 (a2 hne q)
  · have := findsClass_unique (a1 hne) h2
    exact ⟨this, this ▸ hne⟩

/-- the line `inherit NAME` loads the class -/
theorem classify_one_class {W : World} {n : Nat} {file : Str} {lineno : Int} {p : Params} {s s' : Stash} {it : Item} {d : Int} {stmt ws name q : Str} (hs : stmt = c!"inherit" ∨ stmt = c!"inherit_defer") (hws : Gap ws)
    (hn : name ≠ []) (hh : ∀ c ∈ name.head?, reSpace c = false) (hnl : '\n' ∉ name) (hsp : ' ' ∉ name) (hd : '$' ∉ name) (hpar : '(' ∉ name)
    (hq : ClassFound W (dirname file) name q) (hign : ∀ ign, classIgnore s.consts = .ok ign → ign.has name = false)
    (hext : (splitext (abspath W.cwd q)).2 = c!".bbclass") (h : classify W (addFile W n) file lineno p (stmt ++ (ws ++ name)) parseOrder s = (.ok (it, d), s')) :
    it.payload = .inherit stmt name [q] ∧ ∃ sB tmp, addFile W n q lineno (some file) s = (.ok tmp, sB) ∧ d = maxInFileLine tmp ∧ s' = { sB with nextUid := sB.nextUid + 1 } := by
  have hhead : ∀ c ∈ name.head?, reSpace c = false ∧ c ≠ '(' := fun c hc => ⟨hh c hc, fun e => hpar (by rw [← e]; exact List.mem_of_mem_head? hc)⟩
  obtain ⟨m, hm, g1, g2⟩ := reInherit_match hs hws hn hh hnl
  have h0 := h
  suffices hpay : it.payload = .inherit stmt name [q] from ⟨hpay, classify_inherited _ _ _ _ _ _ _ h0 stmt name q hpay hext⟩
  rw [classify_at 2] at h
  · obtain ⟨r, s1, h1, h2⟩ := classify_first hm h
    simp only [handleKind] at h1
    obtain ⟨nm, s2, k1, h1⟩ := bind_ok h1
    obtain ⟨⟨found, off⟩, s3, k2, h1⟩ := bind_ok h1
    obtain ⟨uid, s4, k3, h1⟩ := bind_ok h1
    have e := M.ask_ok k1
    subst s2
    cases k3
    have k1' : expandTerm W s file name = .ok nm := by
      rw [g2] at k1
      exact congrArg Prod.fst k1
    have e := expandTerm_plain' hd hpar k1'
    subst e
    have hw : splitNE ' ' nm = [nm] := by
      have := splitNE_joinS (d := ' ') (l := [nm]) (by intro x hx; rw [List.mem_singleton] at hx; subst hx; exact ⟨hsp, hn⟩)
      simpa [joinS] using this
    rw [hw, inheritLoop] at k2
    obtain ⟨path, s5, l1, l2⟩ := M.bind_ok.1 k2
    have hp : findClass W (dirname file) (withBbclass nm) [c!"classes", c!"classes-recipe", c!"classes-global"] = .ok path := by
      simp only [M.lift, Prod.mk.injEq] at l1
      exact l1.1
    have e := M.lift_ok l1
    subst s5
    obtain ⟨rfl, hqn⟩ := classFound_unique hq hp
    rw [if_neg (by simpa using hqn)] at l2
    obtain ⟨ign, s6, l3, l4⟩ := M.bind_ok.1 l2
    have hi : classIgnore s.consts = .ok ign := congrArg Prod.fst l3
    have e := M.ask_ok l3
    subst s6
    rw [if_neg (by rw [hign ign hi]; simp)] at l4
    obtain ⟨tmp, s7, l5, l6⟩ := M.bind_ok.1 l4
    rw [inheritLoop] at l6
    cases l6
    cases h1
    rcases h2 with h2 | ⟨h2, -⟩
    · injection h2 with h2
      have h3 := congrArg (fun x => x.1.payload) h2
      rw [g1, g2] at h3
      exact h3.symm
    · cases h2
  · intro kp hkp
    obtain ⟨x, u, rfl⟩ := List.exists_cons_of_ne_nil hn
    have hx := hhead x (by simp)
    simp only [parseOrder, List.take, List.mem_cons, List.not_mem_nil, or_false] at hkp
    rcases hkp with rfl | rfl
    · rcases hs with rfl | rfl <;> exact reMatch_none_first rfl rfl
    · rcases hs with rfl | rfl <;> exact not_func_kw (by decide) (by decide) hws hx

theorem inherit_read' {W : World} {ns neg : Bool} {consts : J} (hu : UsableConstants consts) {uid k : Nat} {p q name : Str} {off : Int} {forced : Option Str} {u : Stash} {res : List Item}
    (h : addFile W k p off forced (Stash.init ns neg consts uid) = (.ok res, u)) {es es' es2 : List Entry} (hf : InheritingFile W p es name es2) (hf' : EntryFile W q es')
    (hb : c!".bb" <:+ abspath W.cwd p) (hq : ClassFound W (dirname (abspath W.cwd p)) name q) (hext : (splitext (abspath W.cwd q)).2 = c!".bbclass")
    (hign : ∀ ign, classIgnore consts = .ok ign → ign.has name = false) :
    ∃ its it, RecipeRead consts (abspath W.cwd p) u its (es ++ .other (.blank []) :: (es' ++ es2)) ∧ it ∈ its ∧ (∃ stmt, it.payload = .inherit stmt name [q]) ∧
      (∀ x ∈ its, x = it ∨ x.payload.loads = false) ∧ (es2 ≠ [] → ∃ z ∈ its, z.origin = abspath W.cwd p ∧ ∀ x ∈ its, x.line ≤ z.line) := by
  obtain ⟨stmt, ws, h1, h2, h3⟩ := hf.text
  obtain ⟨n1, n2, n3, n4, n5, n6⟩ := hf.name
  refine loading_read hu h h3 hf' hb (by rw [hext]; simp) ?_
  intro it hitm sA lineno pp d sB hc hcl
  obtain ⟨hp, rest⟩ := classify_one_class h1 h2 n1 n2 n3 n4 n5 n6 hq (by rw [hc]; exact hign) hext hcl
  exact ⟨⟨by rw [hp]; simp [Payload.classifier], stmt, hp⟩, rest⟩

theorem inherit_read {W : World} {ns neg : Bool} {consts : J} (hu : UsableConstants consts) {uid k : Nat} {p q name : Str} {off : Int} {forced : Option Str} {u : Stash} {res : List Item}
    (h : addFile W k p off forced (Stash.init ns neg consts uid) = (.ok res, u)) {es es' es2 : List Entry} (hf : InheritingFile W p es name es2) (hf' : EntryFile W q es')
    (hb : c!".bb" <:+ abspath W.cwd p) (hq : ClassFound W (dirname (abspath W.cwd p)) name q) (hext : (splitext (abspath W.cwd q)).2 = c!".bbclass")
    (hign : ∀ ign, classIgnore consts = .ok ign → ign.has name = false) :
    ∃ its, RecipeRead consts (abspath W.cwd p) u its (es ++ .other (.blank []) :: (es' ++ es2)) := by
  obtain ⟨its, it, R, -⟩ := inherit_read' hu h hf hf' hb hq hext hign
  exact ⟨its, R⟩

/-- **C120** A recipe with one `inherit` or `inherit_defer` of one class is read into a fresh stash. The class is found and consists of entries. `ExpandVar` for the recipe then gives items for exactly the variables
with a value by the declarations before the line, those of the class, and those after the line, in this order, and for each the items of the expansion of the text that follows
from these declarations. -/
theorem C120_values (W D : World) (ns neg : Bool) (consts : J) (hu : UsableConstants consts) (uid k : Nat) (p q name : Str) (off : Int) (forced : Option Str) (u : Stash) (res : List Item)
    (h : addFile W k p off forced (Stash.init ns neg consts uid) = (.ok res, u)) (es es' es2 : List Entry) (hf : InheritingFile W p es name es2) (hf' : EntryFile W q es')
    (hp : c!".bb" <:+ abspath W.cwd p) (hq : ClassFound W (dirname (abspath W.cwd p)) name q) (hext : (splitext (abspath W.cwd q)).2 = c!".bbclass")
    (hign : ∀ ign, classIgnore consts = .ok ign → ign.has name = false)
    (r : List (Str × List Str)) (hr : expandVar D u (some (abspath W.cwd p)) .none .none false = .ok r)
    (b : KV) (hb : setsBase consts = .ok (.dict b)) (hbn : b.keys.Nodup) (hbk : ∀ x ∈ b.keys, '$' ∉ x ∧ '(' ∉ x) (ds : List Decl) (hds : ds = decls es ++ (decls es' ++ decls es2))
    (hdn : ∀ d ∈ ds, '$' ∉ d.name ∧ '(' ∉ d.name) (n : Str) (start : Option Str) (hst : Base (Stash.init ns neg consts uid) (abspath W.cwd p) n start) :
    ((dget n r).isSome = true ↔ Given n start ds) ∧
    (Given n start ds → byOperators n start ds ≠ none ∨ texts n c!"remove" ds = [] →
      ∃ o, expandTerm D u (abspath W.cwd p) (without ((texts n c!"prepend" ds).reverse.flatten ++ (byOperators n start ds).getD [] ++ (texts n c!"append" ds).flatten)
        (texts n c!"remove" ds)) = .ok o ∧ dget n r = some (safeLinesplit o)) := by
  obtain ⟨its, R⟩ := inherit_read hu h hf hf' hp hq hext hign
  have e := (decls_including es es' es2).trans hds.symm
  have := R.values hr hb hbn hbk (by rw [e]; exact hdn) (R.start rfl hst)
  rwa [e] at this

/-- **C120** (references). `ExpandTerm` for the recipe replaces the references of a text as these declarations say. -/
theorem C120_references (W D : World) (ns neg : Bool) (consts : J) (hu : UsableConstants consts) (uid k : Nat) (p q name : Str) (off : Int) (forced : Option Str) (u : Stash) (res : List Item)
    (h : addFile W k p off forced (Stash.init ns neg consts uid) = (.ok res, u)) (es es' es2 : List Entry) (hf : InheritingFile W p es name es2) (hf' : EntryFile W q es')
    (hp : c!".bb" <:+ abspath W.cwd p) (hq : ClassFound W (dirname (abspath W.cwd p)) name q) (hext : (splitext (abspath W.cwd q)).2 = c!".bbclass")
    (hign : ∀ ign, classIgnore consts = .ok ign → ign.has name = false)
    (b : KV) (hb : setsBase consts = .ok (.dict b)) (hd : ∀ k j, b.get k = some j → ∃ t, j = .str t) (value o : Str) (hc : NoCalls value)
    (ho : Filled b (decls es ++ (decls es' ++ decls es2)) (abspath W.cwd p) value o) : expandTerm D u (abspath W.cwd p) value = .ok o := by
  obtain ⟨its, R⟩ := inherit_read hu h hf hf' hp hq hext hign
  rw [← decls_including] at ho
  exact C51_expansion_substitutes D u _ [] value o _ (R.base.trans hb) hc (R.filled hb hd ho)

/-- **C120** (in place). On another disk the recipe has the text of the class in place of the line. If no declaration depends on itself, both expand every text alike, and `ExpandVar` gives
the same items for each variable whose text calls no functions. -/
theorem C120_in_place (W W' D : World) (ns neg ns' neg' : Bool) (consts : J) (hu : UsableConstants consts) (uid uid' k k' : Nat) (p q name : Str) (off off' : Int) (forced forced' : Option Str)
    (u u' : Stash) (res res' : List Item) (hcwd : W'.cwd = W.cwd)
    (h : addFile W k p off forced (Stash.init ns neg consts uid) = (.ok res, u)) (h' : addFile W' k' p off' forced' (Stash.init ns' neg' consts uid') = (.ok res', u'))
    (es es' es2 : List Entry) (hf : InheritingFile W p es name es2) (hf' : EntryFile W q es') (hf2 : EntryFile W' p (es ++ (es' ++ es2)))
    (hp : c!".bb" <:+ abspath W.cwd p) (hq : ClassFound W (dirname (abspath W.cwd p)) name q) (hext : (splitext (abspath W.cwd q)).2 = c!".bbclass")
    (hign : ∀ ign, classIgnore consts = .ok ign → ign.has name = false)
    (b : KV) (hb : setsBase consts = .ok (.dict b)) (hd : ∀ k j, b.get k = some j → ∃ t, j = .str t) (ds : List Decl) (hds : ds = decls es ++ (decls es' ++ decls es2))
    (rank : Str → Nat) (hr : Ranked b ds rank) (hempty : stands b ds [] = none) (hff : ∀ n t, FromFileName (abspath W.cwd p) n t → '$' ∉ t) :
    (∀ value names, Written value names → NoCalls value → expandTerm D u (abspath W.cwd p) value = expandTerm D u' (abspath W.cwd p) value) ∧
    ∀ r r', expandVar D u (some (abspath W.cwd p)) .none .none false = .ok r → expandVar D u' (some (abspath W.cwd p)) .none .none false = .ok r' →
      b.keys.Nodup → (∀ x ∈ b.keys, '$' ∉ x ∧ '(' ∉ x) → (∀ d ∈ ds, '$' ∉ d.name ∧ '(' ∉ d.name) →
      ∀ n start, Base (Stash.init ns neg consts uid) (abspath W.cwd p) n start → byOperators n start ds ≠ none ∨ texts n c!"remove" ds = [] →
      (∃ names, Written (without ((texts n c!"prepend" ds).reverse.flatten ++ (byOperators n start ds).getD [] ++ (texts n c!"append" ds).flatten) (texts n c!"remove" ds)) names) →
      NoCalls (without ((texts n c!"prepend" ds).reverse.flatten ++ (byOperators n start ds).getD [] ++ (texts n c!"append" ds).flatten) (texts n c!"remove" ds)) → dget n r = dget n r' := by
  obtain ⟨its, R⟩ := inherit_read hu h hf hf' hp hq hext hign
  obtain ⟨t, ls, gs, f1, f2, f3, f4⟩ := hf2.text
  have R' := recipe_read hu h' f1 f2 f3 f4
  rw [hcwd] at R'
  have e := (decls_including es es' es2).trans hds.symm
  have e' : decls (es ++ (es' ++ es2)) = ds := by rw [decls_append, decls_append, hds]
  exact R.same_values R' e e' hb hd hr hempty hff

/-- one entry on each line, and the line of the inherit -/
theorem inheritingFile_lines {W : World} {path stmt ws name : Str} {es es2 : List Entry}
    (hf : W.file (abspath W.cwd path) = .text ((es.map (fun e => e.stmt.text) ++ (stmt ++ (ws ++ name)) :: es2.map (fun e => e.stmt.text)).map (fun x => x ++ c!"\n")).flatten)
    (hes : ∀ e ∈ es ++ es2, e.Ok ∧ OneLine e.stmt.text ∧ ¬ c!"${@" <:+: e.stmt.text) (hl : OneLine (stmt ++ (ws ++ name)) ∧ ¬ c!"${@" <:+: stmt ++ (ws ++ name))
    (hs : stmt = c!"inherit" ∨ stmt = c!"inherit_defer") (hw : Gap ws) (hn : name ≠ [] ∧ (∀ c ∈ name.head?, reSpace c = false) ∧ '\n' ∉ name ∧ ' ' ∉ name ∧ '$' ∉ name ∧ '(' ∉ name) : InheritingFile W path es name es2 := by
  obtain ⟨g1, g2, g3⟩ := one_line_texts (sts := es.map (fun e => e.stmt.text) ++ (stmt ++ (ws ++ name)) :: es2.map (fun e => e.stmt.text)) (by
    intro x hx
    simp only [List.mem_append, List.mem_map, List.mem_cons] at hx
    rcases hx with ⟨e, he, rfl⟩ | rfl | ⟨e, he, rfl⟩
    · exact (hes e (by simp [he])).2
    · exact hl
    · exact (hes e (by simp [he])).2)
  have key : ∀ l : List Entry, l ⊆ es ++ es2 → List.Forall₂ (fun g e => ¬ c!"${@" <:+: g.flatten ∧ joined g.flatten = e.stmt.text ∧ e.Ok) (l.map (fun e => [e.stmt.text ++ c!"\n"])) l := by
    intro l hsub
    rw [List.forall₂_map_left_iff, List.forall₂_same]
    intro e he
    simp only [List.flatten_cons, List.flatten_nil, List.append_nil]
    have hm := hsub he
    obtain ⟨k1, k2⟩ := g3 e.stmt.text (by
      rcases List.mem_append.1 hm with h | h
      · exact List.mem_append_left _ (List.mem_map_of_mem h)
      · exact List.mem_append_right _ (List.mem_cons_of_mem _ (List.mem_map_of_mem h)))
    exact ⟨k1, k2, (hes e hm).1⟩
  refine ⟨⟨stmt, ws, hs, hw, _, _, es.map (fun e => [e.stmt.text ++ c!"\n"]), [stmt ++ (ws ++ name) ++ c!"\n"], es2.map (fun e => [e.stmt.text ++ c!"\n"]), hf, g1, ?_, key es (fun x hx => by simp [hx]), ?_,
    key es2 (fun x hx => by simp [hx])⟩, hn⟩
  · have e : es.map (fun e => [e.stmt.text ++ c!"\n"]) ++ [stmt ++ (ws ++ name) ++ c!"\n"] :: es2.map (fun e => [e.stmt.text ++ c!"\n"]) =
        ((es.map (fun e => e.stmt.text) ++ (stmt ++ (ws ++ name)) :: es2.map (fun e => e.stmt.text)).map (fun x => x ++ c!"\n")).map (fun x => [x]) := by
      simp only [List.map_append, List.map_cons, List.map_map]; rfl
    rw [e]
    exact g2
  · obtain ⟨k1, k2⟩ := g3 (stmt ++ (ws ++ name)) (by simp)
    simp only [List.flatten_cons, List.flatten_nil, List.append_nil]
    exact ⟨k1, k2⟩
end

section
attribute [local instance] Sample.asciiUni
open Spec

/-- the disk with the recipe and the class -/
def Sample.clsDisk : World := Sample.world
  [(c!"/w/a_1.0.bb", ((Sample.incBefore.map (fun e => e.stmt.text) ++ (c!"inherit" ++ (c!" " ++ c!"k")) :: Sample.incAfter.map (fun e => e.stmt.text)).map (fun x => x ++ c!"\n")).flatten),
   (c!"/w/classes/k.bbclass", (Sample.incInner.map (fun e => e.stmt.text ++ c!"\n")).flatten)]

theorem Sample.cls_file : InheritingFile Sample.clsDisk c!"/w/a_1.0.bb" Sample.incBefore c!"k" Sample.incAfter := by
  refine inheritingFile_lines (stmt := c!"inherit") (ws := c!" ") rfl (fun e he => Sample.inc_ok e (List.mem_append_left _ he)) ⟨oneLine_of_chars (by decide) (by decide) (by decide), ?_⟩
    (.inl rfl) ⟨by decide, by decide⟩ ⟨by decide, by decide, by decide, by decide, by decide, by decide⟩
  rintro ⟨a, b, e'⟩
  have h1 : '@' ∈ c!"inherit" ++ (c!" " ++ c!"k") := by rw [← e']; simp
  revert h1; decide

/-- all hypotheses of C120 hold for these two files -/
example (k : Nat) (off : Int) (u : Stash) (res : List Item) (h : addFile Sample.clsDisk k c!"/w/a_1.0.bb" off none (Stash.init false false Sample.constants 0) = (.ok res, u)) (D : World)
    (r : List (Str × List Str)) (hr : expandVar D u (some c!"/w/a_1.0.bb") .none .none false = .ok r) :
    dget c!"A" r = some [c!"1", c!"2", c!"4"] := by
  have hb : setsBase Sample.constants = .ok J.empty := Sample.emptyBase (u := Stash.init false false Sample.constants 0) (by decide +kernel)
  have f2 : EntryFile Sample.clsDisk c!"/w/classes/k.bbclass" Sample.incInner := entryFile_lines rfl (fun e he => Sample.inc_ok e (List.mem_append_right _ he))
  have hq : ClassFound Sample.clsDisk (dirname (abspath Sample.clsDisk.cwd c!"/w/a_1.0.bb")) c!"k" c!"/w/classes/k.bbclass" :=
    ⟨c!"k.bbclass", .inr ⟨by decide, rfl⟩, .here (.inl ⟨by decide +kernel, by decide +kernel⟩) (by decide)⟩
  have hign : ∀ ign, classIgnore Sample.constants = .ok ign → ign.has c!"k" = false := by
    intro ign h
    have : (match classIgnore Sample.constants with | .ok j => j.has c!"k" | _ => false) = false := by decide +kernel
    rw [h] at this
    exact this
  have main := fun n hn => C120_values Sample.clsDisk D false false Sample.constants Sample.usableConstants 0 k _ _ _ off none u res h _ _ _ Sample.cls_file f2 (by decide) hq (by decide) hign
    r hr .nil hb (by decide) (by decide) _ rfl (by decide) n none (.none hb rfl hn)
  have refs := fun v o hc ho => C120_references Sample.clsDisk D false false Sample.constants Sample.usableConstants 0 k _ _ _ off none u res h _ _ _ Sample.cls_file f2 (by decide) hq
    (by decide) hign .nil hb (by rintro k j ⟨⟩) v o hc ho
  obtain ⟨o, h1, h2⟩ := (main c!"A" (by decide)).2 (.inl (by decide)) (.inl (by decide))
  have := refs c!"1 2 4" c!"1 2 4" ⟨by decide, by unfold ReadsFile; decide⟩
    (.char (by decide) (.char (by decide) (.char (by decide) (.char (by decide) (.char (by decide) .nil)))))
  cases this.symm.trans h1
  rw [h2]
  decide +kernel

/-- both calls succeed and give these values -/
example : ((Sample.addAll Sample.clsDisk [c!"/w/a_1.0.bb"] (Stash.init false false Sample.constants 0)).bind fun u =>
    (expandVar (Sample.world []) u (some c!"/w/a_1.0.bb") .none .none false).toOption.map (fun e => (dget c!"A" e, dget c!"B" e))) = some (some [c!"1", c!"2", c!"4"], some [c!"3", c!"x"]) := by
  decide +kernel
end
end Oelint

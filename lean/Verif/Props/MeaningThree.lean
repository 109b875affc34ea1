import Verif.Props.MeaningKind
/-! # C125: a recipe with an included file and a `.bbappend` -/
set_option linter.unusedSectionVars false
namespace Oelint
section
variable [Uni]
open Spec

theorem crossLink_own_append {file : Str} {its r : List Item} {s t : Stash} (ha : endsWith c!".bbappend" file = true) (h : crossLink file its s = (.ok r, t)) : t.items = s.items := by
  unfold crossLink at h
  rw [ha, if_pos rfl] at h
  obtain ⟨s0, s0', h0, h⟩ := M.bind_ok.1 h
  cases h0
  obtain ⟨mx, s1, h1, h⟩ := M.bind_ok.1 h
  cases h
  exact (linkAppend_own h1).1

theorem addFile_own_append {W : World} {n : Nat} {path : Str} {off : Int} {forced : Option Str} {s u : Stash} {r : List Item} (ha : endsWith c!".bbappend" (abspath W.cwd path) = true)
    (hnew : alreadySeen s (abspath W.cwd path) = false) (h : addFile W n path off forced s = (.ok r, u)) (hr : ∀ x ∈ r, loadedBy x = []) : u.items = s.items ++ r := by
  cases n with
  | zero => cases h
  | succ n =>
  obtain ⟨hs, -⟩ | ⟨-, ⟨ok⟩⟩ := addFile_ok W h
  · rw [hnew] at hs; cases hs
  have key : ∀ {l k : List Item}, l.map content = k.map content → (∀ x ∈ l, loadedBy x = []) → ∀ x ∈ k, loadedBy x = [] := by
    intro l k e hl x hx
    have : content x ∈ l.map content := e ▸ List.mem_map_of_mem hx
    obtain ⟨y, hy, he⟩ := List.mem_map.1 this
    have hp : y.payload = x.payload := show (content y).payload = (content x).payload by rw [he]
    have := hl y hy
    unfold loadedBy at this ⊢
    rwa [hp] at this
  obtain ⟨k, e1⟩ := itemsLoop_idle _ _ _ _ _ _ _ _ _ _ ok.loop (key (crossLink_content ok.cross) hr)
  have c1 := crossLink_own_append ha ok.cross
  have d := addDistroMachine_rel (R := fun s s' => s'.items = s.items) (fun _ => rfl) (fun _ _ _ h1 h2 => h2.trans h1) (fun _ _ => rfl) W (abspath W.cwd path) ok.s3
  rw [ok.distro] at d
  simp only at c1 d
  rw [e1] at c1
  rw [ok.final]
  show ok.s4.items ++ r = _
  rw [d, c1]
  rfl

/-- what was read stays, and the entries of the `.bbappend` come after it, if the recipe has the last line -/
theorem append_read {W : World} {ns neg : Bool} {consts : J} (hu : UsableConstants consts) {uid k k' : Nat} {p a : Str} {off off' : Int} {forced forced' : Option Str} {s1 u : Stash}
    {res res' : List Item} (h0 : 0 ≤ off) (h0' : 0 ≤ off')
    (h : addFile W k p off forced (Stash.init ns neg consts uid) = (.ok res, s1)) (h' : addFile W k' a off' forced' s1 = (.ok res', u)) (hread : res' ≠ [])
    {es0 es3 : List Entry} {its : List Item} (R : RecipeRead consts (abspath W.cwd p) s1 its es0) {z : Item} (z1 : z ∈ its) (z2 : z.origin = abspath W.cwd p) (z3 : ∀ x ∈ its, x.line ≤ z.line)
    (hfa : EntryFile W a es3)
    {stem n : Str} (ha : IsFile (abspath W.cwd a) stem c!".bbappend") (hs : PlainAppend stem) (hx : IsFile (abspath W.cwd p) n c!".bb") (hn : PlainRecipe n) (hg : Glob stem n) :
    ∃ its, RecipeRead consts (abspath W.cwd p) u its (es0 ++ es3) := by
  have hnew : alreadySeen s1 (abspath W.cwd a) = false := by
    cases hh : alreadySeen s1 (abspath W.cwd a) with
    | false => rfl
    | true =>
      cases k' with
      | zero => cases h'
      | succ k' =>
        rw [addFile_seen off' forced' hh] at h'
        cases h'
        exact absurd rfl hread
  obtain ⟨t', ls', gs', f1', f2', f3', f4'⟩ := hfa.text
  obtain ⟨hE', hI'⟩ := file_entries h' hnew f1' f2' f3' f4'
  have hi := addFile_own_append (by rw [endsWith_iff]; exact isFile_suffix ha) hnew h' hI'
  have hh := two_forward h0 h0' h h'
  have ho' := ((C03_one_item_per_chunk W k' a off' forced' _ _ res' h').2 t' hnew f1').2
  have hmem : ∀ x, x ∈ u.items ↔ x ∈ its ++ res' := fun x => by rw [hi, List.mem_append, List.mem_append, R.items]
  have grow : LinksGrow s1 u := by
    have := addFile_linksGrow (W := W) k' a off' forced' s1
    rwa [h'] at this
  have zu : z ∈ u.items := (hmem z).2 (List.mem_append_left _ z1)
  have c0 : ConstsOf consts (Stash.init ns neg consts uid) := ⟨hu, otherNames_refl _⟩
  have c1 : ConstsOf consts u := history_constsOf hh hu
  refine ⟨its ++ res', hmem, List.rel_append R.entries hE', fun x hxm => ?_, ?_, (twin_names W).sets (s' := { (Stash.init ns neg consts uid) with consts := u.consts }) (constsOf_names c0 c1)⟩
  · rcases List.mem_append.1 hxm with hm | hm
    · rcases R.linked x hm with e | ⟨-, fs, e1, e2⟩
      · exact .inl e
      · exact .inr ⟨rfl, mem_links.1 (grow.2 _ _ (mem_links.2 ⟨fs, e1, e2⟩))⟩
    · have := C41_matching_linked_partial W ns neg consts uid u hh x z ((hmem x).2 hxm) zu stem n (by rw [ho' x hm]; exact ha) hs (by rw [z2]; exact hx) hn hg
      rw [z2] at this
      exact .inr ⟨rfl, mem_links.1 this⟩
  · rw [List.pairwise_append]
    refine ⟨R.rising, (C02_lines W k' a off' forced' _ _ res' _ h' hnew f1').2.1, fun x hxm y hym => ?_⟩
    have h1 := z3 x hxm
    have h2 := C42_append_after_recipe W ns neg consts uid u hh y z ((hmem y).2 (List.mem_append_right _ hym)) zu stem n (by rw [ho' y hym]; exact ha) hs (by rw [z2]; exact hx) hn hg
    omega

/-- the stash has the entries of the recipe with the included file in place, then those of the `.bbappend` -/
theorem three_read {W : World} {ns neg : Bool} {consts : J} (hu : UsableConstants consts) {uid k k' : Nat} {p q a name : Str} {off off' : Int} {forced forced' : Option Str} {s1 u : Stash}
    {res res' : List Item} (h0 : 0 ≤ off) (h0' : 0 ≤ off')
    (h : addFile W k p off forced (Stash.init ns neg consts uid) = (.ok res, s1)) (h' : addFile W k' a off' forced' s1 = (.ok res', u)) (hread : res' ≠ [])
    {es es' es2 es3 : List Entry} (hf : IncludingFile W p es name es2) (hf' : EntryFile W q es') (hfa : EntryFile W a es3) (hlast : es2 ≠ [])
    (hb : c!".bb" <:+ abspath W.cwd p) (hq : findLocalOrLayer W name (dirname (abspath W.cwd p)) = .ok q) (hne : q ≠ []) (hext : (splitext (abspath W.cwd q)).2 ∈ [c!".inc", c!".conf"])
    {b : J} (hbase : setsBase consts = .ok b) (hign : ∀ ign, includeIgnore consts = .ok ign → ign.has name = false)
    {stem n : Str} (ha : IsFile (abspath W.cwd a) stem c!".bbappend") (hs : PlainAppend stem) (hx : IsFile (abspath W.cwd p) n c!".bb") (hn : PlainRecipe n) (hg : Glob stem n) :
    ∃ its, RecipeRead consts (abspath W.cwd p) u its ((es ++ .other (.blank []) :: (es' ++ es2)) ++ es3) := by
  obtain ⟨its, it, R, m1, -, -, m4⟩ := include_read' hu h hf hf' hb hq hne hext hbase hign
  obtain ⟨z, z1, z2, z3⟩ := m4 hlast
  exact append_read hu h0 h0' h h' hread R z1 z2 z3 hfa ha hs hx hn hg

/-- **C125** (partial). A recipe with one `include` or `require`, followed by at least one more line, is read into a fresh stash, then its `.bbappend`. `ExpandVar` for the recipe then gives
items for exactly the variables with a value by the declarations before the line, those of the included file, those after the line and those of the `.bbappend`, in this order, and for each
the items of the expansion of the text that follows from these declarations. -/
theorem C125_values_partial (W D : World) (ns neg : Bool) (consts : J) (hu : UsableConstants consts) (uid k k' : Nat) (p q a name : Str) (off off' : Int) (forced forced' : Option Str) (s1 u : Stash)
    (res res' : List Item) (h0 : 0 ≤ off) (h0' : 0 ≤ off')
    (h : addFile W k p off forced (Stash.init ns neg consts uid) = (.ok res, s1)) (h' : addFile W k' a off' forced' s1 = (.ok res', u)) (hread : res' ≠ [])
    (es es' es2 es3 : List Entry) (hf : IncludingFile W p es name es2) (hf' : EntryFile W q es') (hfa : EntryFile W a es3) (hlast : es2 ≠ [])
    (hp : c!".bb" <:+ abspath W.cwd p) (hq : findLocalOrLayer W name (dirname (abspath W.cwd p)) = .ok q) (hqne : q ≠ []) (hext : (splitext (abspath W.cwd q)).2 ∈ [c!".inc", c!".conf"])
    (hign : ∀ ign, includeIgnore consts = .ok ign → ign.has name = false)
    (stem rn : Str) (ha : IsFile (abspath W.cwd a) stem c!".bbappend") (hs : PlainAppend stem) (hx : IsFile (abspath W.cwd p) rn c!".bb") (hn : PlainRecipe rn) (hg : Glob stem rn)
    (r : List (Str × List Str)) (hr : expandVar D u (some (abspath W.cwd p)) .none .none false = .ok r)
    (b : KV) (hb : setsBase consts = .ok (.dict b)) (hbn : b.keys.Nodup) (hbk : ∀ x ∈ b.keys, '$' ∉ x ∧ '(' ∉ x) (ds : List Decl) (hds : ds = decls es ++ (decls es' ++ decls es2) ++ decls es3)
    (hdn : ∀ d ∈ ds, '$' ∉ d.name ∧ '(' ∉ d.name) (n : Str) (start : Option Str) (hst : Base (Stash.init ns neg consts uid) (abspath W.cwd p) n start) :
    ((dget n r).isSome = true ↔ Given n start ds) ∧
    (Given n start ds → byOperators n start ds ≠ none ∨ texts n c!"remove" ds = [] →
      ∃ o, expandTerm D u (abspath W.cwd p) (without ((texts n c!"prepend" ds).reverse.flatten ++ (byOperators n start ds).getD [] ++ (texts n c!"append" ds).flatten)
        (texts n c!"remove" ds)) = .ok o ∧ dget n r = some (safeLinesplit o)) := by
  obtain ⟨its, R⟩ := three_read hu h0 h0' h h' hread hf hf' hfa hlast hp hq hqne hext hb hign ha hs hx hn hg
  have e : decls ((es ++ .other (.blank []) :: (es' ++ es2)) ++ es3) = ds := by rw [decls_append, decls_including, hds]
  have := R.values hr hb hbn hbk (by rw [e]; exact hdn) (R.start rfl hst)
  rwa [e] at this

/-- **C125** (partial, references). `ExpandTerm` for the recipe replaces the references of a text as these declarations say. -/
theorem C125_references_partial (W D : World) (ns neg : Bool) (consts : J) (hu : UsableConstants consts) (uid k k' : Nat) (p q a name : Str) (off off' : Int) (forced forced' : Option Str) (s1 u : Stash)
    (res res' : List Item) (h0 : 0 ≤ off) (h0' : 0 ≤ off')
    (h : addFile W k p off forced (Stash.init ns neg consts uid) = (.ok res, s1)) (h' : addFile W k' a off' forced' s1 = (.ok res', u)) (hread : res' ≠ [])
    (es es' es2 es3 : List Entry) (hf : IncludingFile W p es name es2) (hf' : EntryFile W q es') (hfa : EntryFile W a es3) (hlast : es2 ≠ [])
    (hp : c!".bb" <:+ abspath W.cwd p) (hq : findLocalOrLayer W name (dirname (abspath W.cwd p)) = .ok q) (hqne : q ≠ []) (hext : (splitext (abspath W.cwd q)).2 ∈ [c!".inc", c!".conf"])
    (hign : ∀ ign, includeIgnore consts = .ok ign → ign.has name = false)
    (stem rn : Str) (ha : IsFile (abspath W.cwd a) stem c!".bbappend") (hs : PlainAppend stem) (hx : IsFile (abspath W.cwd p) rn c!".bb") (hn : PlainRecipe rn) (hg : Glob stem rn)
    (b : KV) (hb : setsBase consts = .ok (.dict b)) (hd : ∀ k j, b.get k = some j → ∃ t, j = .str t) (value o : Str) (hc : NoCalls value)
    (ho : Filled b (decls es ++ (decls es' ++ decls es2) ++ decls es3) (abspath W.cwd p) value o) : expandTerm D u (abspath W.cwd p) value = .ok o := by
  obtain ⟨its, R⟩ := three_read hu h0 h0' h h' hread hf hf' hfa hlast hp hq hqne hext hb hign ha hs hx hn hg
  rw [← decls_including, ← decls_append] at ho
  exact C51_expansion_substitutes D u _ [] value o _ (R.base.trans hb) hc (R.filled hb hd ho)

/-- **C125** (partial, with a class in place of the included file). -/
theorem C125_inherit_values_partial (W D : World) (ns neg : Bool) (consts : J) (hu : UsableConstants consts) (uid k k' : Nat) (p q a name : Str) (off off' : Int) (forced forced' : Option Str) (s1 u : Stash)
    (res res' : List Item) (h0 : 0 ≤ off) (h0' : 0 ≤ off')
    (h : addFile W k p off forced (Stash.init ns neg consts uid) = (.ok res, s1)) (h' : addFile W k' a off' forced' s1 = (.ok res', u)) (hread : res' ≠ [])
    (es es' es2 es3 : List Entry) (hf : InheritingFile W p es name es2) (hf' : EntryFile W q es') (hfa : EntryFile W a es3) (hlast : es2 ≠ [])
    (hp : c!".bb" <:+ abspath W.cwd p) (hq : ClassFound W (dirname (abspath W.cwd p)) name q) (hext : (splitext (abspath W.cwd q)).2 = c!".bbclass")
    (hign : ∀ ign, classIgnore consts = .ok ign → ign.has name = false)
    (stem rn : Str) (ha : IsFile (abspath W.cwd a) stem c!".bbappend") (hs : PlainAppend stem) (hx : IsFile (abspath W.cwd p) rn c!".bb") (hn : PlainRecipe rn) (hg : Glob stem rn)
    (r : List (Str × List Str)) (hr : expandVar D u (some (abspath W.cwd p)) .none .none false = .ok r)
    (b : KV) (hb : setsBase consts = .ok (.dict b)) (hbn : b.keys.Nodup) (hbk : ∀ x ∈ b.keys, '$' ∉ x ∧ '(' ∉ x) (ds : List Decl) (hds : ds = decls es ++ (decls es' ++ decls es2) ++ decls es3)
    (hdn : ∀ d ∈ ds, '$' ∉ d.name ∧ '(' ∉ d.name) (n : Str) (start : Option Str) (hst : Base (Stash.init ns neg consts uid) (abspath W.cwd p) n start) :
    ((dget n r).isSome = true ↔ Given n start ds) ∧
    (Given n start ds → byOperators n start ds ≠ none ∨ texts n c!"remove" ds = [] →
      ∃ o, expandTerm D u (abspath W.cwd p) (without ((texts n c!"prepend" ds).reverse.flatten ++ (byOperators n start ds).getD [] ++ (texts n c!"append" ds).flatten)
        (texts n c!"remove" ds)) = .ok o ∧ dget n r = some (safeLinesplit o)) := by
  obtain ⟨its0, it, R0, -, -, -, m4⟩ := inherit_read' hu h hf hf' hp hq hext hign
  obtain ⟨z, z1, z2, z3⟩ := m4 hlast
  obtain ⟨its, R⟩ := append_read hu h0 h0' h h' hread R0 z1 z2 z3 hfa ha hs hx hn hg
  have e : decls ((es ++ .other (.blank []) :: (es' ++ es2)) ++ es3) = ds := by rw [decls_append, decls_including, hds]
  have := R.values hr hb hbn hbk (by rw [e]; exact hdn) (R.start rfl hst)
  rwa [e] at this

/-- **C125** (partial, with a class in place of the included file, references). -/
theorem C125_inherit_references_partial (W D : World) (ns neg : Bool) (consts : J) (hu : UsableConstants consts) (uid k k' : Nat) (p q a name : Str) (off off' : Int) (forced forced' : Option Str) (s1 u : Stash)
    (res res' : List Item) (h0 : 0 ≤ off) (h0' : 0 ≤ off')
    (h : addFile W k p off forced (Stash.init ns neg consts uid) = (.ok res, s1)) (h' : addFile W k' a off' forced' s1 = (.ok res', u)) (hread : res' ≠ [])
    (es es' es2 es3 : List Entry) (hf : InheritingFile W p es name es2) (hf' : EntryFile W q es') (hfa : EntryFile W a es3) (hlast : es2 ≠ [])
    (hp : c!".bb" <:+ abspath W.cwd p) (hq : ClassFound W (dirname (abspath W.cwd p)) name q) (hext : (splitext (abspath W.cwd q)).2 = c!".bbclass")
    (hign : ∀ ign, classIgnore consts = .ok ign → ign.has name = false)
    (stem rn : Str) (ha : IsFile (abspath W.cwd a) stem c!".bbappend") (hs : PlainAppend stem) (hx : IsFile (abspath W.cwd p) rn c!".bb") (hn : PlainRecipe rn) (hg : Glob stem rn)
    (b : KV) (hb : setsBase consts = .ok (.dict b)) (hd : ∀ k j, b.get k = some j → ∃ t, j = .str t) (value o : Str) (hc : NoCalls value)
    (ho : Filled b (decls es ++ (decls es' ++ decls es2) ++ decls es3) (abspath W.cwd p) value o) : expandTerm D u (abspath W.cwd p) value = .ok o := by
  obtain ⟨its0, it, R0, -, -, -, m4⟩ := inherit_read' hu h hf hf' hp hq hext hign
  obtain ⟨z, z1, z2, z3⟩ := m4 hlast
  obtain ⟨its, R⟩ := append_read hu h0 h0' h h' hread R0 z1 z2 z3 hfa ha hs hx hn hg
  rw [← decls_including, ← decls_append] at ho
  exact C51_expansion_substitutes D u _ [] value o _ (R.base.trans hb) hc (R.filled hb hd ho)
end

section
attribute [local instance] Sample.asciiUni
open Spec

/-- a recipe that ends with an `include`, the included file, and a `.bbappend` of the recipe -/
def Sample.endsDisk : World := Sample.world [(c!"/w/a_1.0.bb", c!"require a.inc\n"), (c!"/w/a.inc", c!"B = \"1\"\nC = \"1\"\nA = \"1\"\n"), (c!"/w/a_%.bbappend", c!"A = \"2\"\n")]

/-- **C125** (negation). The full claim is that a `.bbappend` acts after the recipe and all it includes. It is false: if the recipe ends with the `include`, then whatever the order in which the
files are added, a line of the included file comes after the `.bbappend`, and `ExpandVar` gives what the included file assigns, not what the `.bbappend` assigns. -/
theorem C125_include_at_end_counterexample : ∀ ps ∈ [[c!"/w/a_1.0.bb", c!"/w/a_%.bbappend"], [c!"/w/a_%.bbappend", c!"/w/a_1.0.bb"]],
    ((Sample.addAll Sample.endsDisk ps (Stash.init false false Sample.constants 0)).bind fun u =>
      (expandVar (Sample.world []) u (some c!"/w/a_1.0.bb") .none .none false).toOption.map (fun r => (dget c!"A" r,
        (u.items.any fun x => u.items.any fun y => x.origin == c!"/w/a.inc" && y.origin == c!"/w/a_%.bbappend" && decide (y.line < x.line))))) = some (some [c!"1"], true) := by
  decide +kernel

/-- a recipe that ends with an `inherit`, the class, and a `.bbappend` of the recipe -/
def Sample.endsClassDisk : World := Sample.world [(c!"/w/a_1.0.bb", c!"inherit k\n"), (c!"/w/classes/k.bbclass", c!"B = \"1\"\nC = \"1\"\nA = \"1\"\n"), (c!"/w/a_%.bbappend", c!"A = \"2\"\n")]

/-- **C125** (negation, classes). The same with a class that is inherited in the last line of the recipe. -/
theorem C125_inherit_at_end_counterexample : ∀ ps ∈ [[c!"/w/a_1.0.bb", c!"/w/a_%.bbappend"], [c!"/w/a_%.bbappend", c!"/w/a_1.0.bb"]],
    ((Sample.addAll Sample.endsClassDisk ps (Stash.init false false Sample.constants 0)).bind fun u =>
      (expandVar (Sample.world []) u (some c!"/w/a_1.0.bb") .none .none false).toOption.map (fun r => dget c!"A" r)) = some (some [c!"1"]) := by
  decide +kernel

/-- the recipe with the include and its file, and a `.bbappend` -/
def Sample.threeDisk : World := Sample.world [(c!"/w/a_1.0.bb", ((Sample.pkgs.take 1).map (fun e => e.stmt.text ++ c!"\n")).flatten ++ c!"require a.inc\n" ++ ((Sample.pkgs.drop 2).map (fun e => e.stmt.text ++ c!"\n")).flatten),
  (c!"/w/a.inc", (((Sample.pkgs.drop 1).take 1).map (fun e => e.stmt.text ++ c!"\n")).flatten), (c!"/w/a_%.bbappend", (((Sample.pkgs.drop 1).take 1).map (fun e => e.stmt.text ++ c!"\n")).flatten)]

theorem Sample.three_file : IncludingFile Sample.threeDisk c!"/w/a_1.0.bb" (Sample.pkgs.take 1) c!"a.inc" (Sample.pkgs.drop 2) := by
  refine includingFile_lines (stmt := c!"require") (ws := c!" ") rfl (fun e he => Sample.pkgs_ok e ((List.mem_append.1 he).elim List.mem_of_mem_take List.mem_of_mem_drop)) ⟨oneLine_of_chars (by decide) (by decide) (by decide), ?_⟩
    (.inr rfl) ⟨by decide, by decide⟩ ⟨by decide, by decide, by decide, by decide⟩
  rintro ⟨a, b, e'⟩
  have h1 : '@' ∈ c!"require" ++ (c!" " ++ c!"a.inc") := by rw [← e']; simp
  revert h1; decide

/-- all hypotheses of C125 hold for these three files -/
example (k k' : Nat) (s1 u : Stash) (res res' : List Item) (h : addFile Sample.threeDisk k c!"/w/a_1.0.bb" 0 none (Stash.init false false Sample.constants 0) = (.ok res, s1))
    (h' : addFile Sample.threeDisk k' c!"/w/a_%.bbappend" 0 none s1 = (.ok res', u)) (hread : res' ≠ []) (D : World)
    (r : List (Str × List Str)) (hr : expandVar D u (some c!"/w/a_1.0.bb") .none .none false = .ok r) : dget c!"E" r = some [c!"e1", c!"e2"] := by
  have hb : setsBase Sample.constants = .ok J.empty := Sample.emptyBase (u := Stash.init false false Sample.constants 0) (by decide +kernel)
  have g2 : EntryFile Sample.threeDisk c!"/w/a.inc" ((Sample.pkgs.drop 1).take 1) := entryFile_lines rfl (fun e he => Sample.pkgs_ok e (List.mem_of_mem_drop (List.mem_of_mem_take he)))
  have g3 : EntryFile Sample.threeDisk c!"/w/a_%.bbappend" ((Sample.pkgs.drop 1).take 1) := entryFile_lines rfl (fun e he => Sample.pkgs_ok e (List.mem_of_mem_drop (List.mem_of_mem_take he)))
  have hq : findLocalOrLayer Sample.threeDisk c!"a.inc" (dirname (abspath Sample.threeDisk.cwd c!"/w/a_1.0.bb")) = .ok c!"/w/a.inc" := by decide +kernel
  have hign : ∀ ign, includeIgnore Sample.constants = .ok ign → ign.has c!"a.inc" = false := by
    intro ign h
    have : (match includeIgnore Sample.constants with | .ok j => j.has c!"a.inc" | _ => false) = false := by decide +kernel
    rw [h] at this
    exact this
  have a1 : IsFile (abspath Sample.threeDisk.cwd c!"/w/a_%.bbappend") c!"a_%" c!".bbappend" := ⟨c!"/w", rfl, by decide⟩
  have a2 : IsFile (abspath Sample.threeDisk.cwd c!"/w/a_1.0.bb") c!"a_1.0" c!".bb" := ⟨c!"/w", rfl, by decide⟩
  have a3 : PlainRecipe c!"a_1.0" := by unfold PlainRecipe; decide
  have a4 : Glob c!"a_%" c!"a_1.0" := .char (by decide) (by decide) (.char (by decide) (by decide) (.percent (a := c!"1.0") (by decide) .nil))
  have main := C125_values_partial Sample.threeDisk D false false Sample.constants Sample.usableConstants 0 k k' _ _ _ _ 0 0 none none s1 u res res' (by decide) (by decide) h h' hread _ _ _ _
    Sample.three_file g2 g3 (by decide) (by decide) hq (by decide) (by decide) hign _ _ a1 ⟨by decide, by decide⟩ a2 a3 a4 r hr .nil hb (by decide) (by decide) _ rfl (by decide) c!"E" none
    (.none hb rfl (by decide))
  obtain ⟨o, h1, h2⟩ := main.2 (.inl (by decide)) (.inl (by decide))
  have := C125_references_partial Sample.threeDisk D false false Sample.constants Sample.usableConstants 0 k k' _ _ _ _ 0 0 none none s1 u res res' (by decide) (by decide) h h' hread _ _ _ _
    Sample.three_file g2 g3 (by decide) (by decide) hq (by decide) (by decide) hign _ _ a1 ⟨by decide, by decide⟩ a2 a3 a4 .nil hb (by rintro k j ⟨⟩) c!"e1 e2" c!"e1 e2"
    ⟨by decide, by unfold ReadsFile; decide⟩ (.char (by decide) (.char (by decide) (.char (by decide) (.char (by decide) (.char (by decide) .nil)))))
  cases this.symm.trans h1
  rw [h2]
  decide +kernel

/-- the recipe with a class in place of the included file -/
def Sample.threeClassDisk : World := Sample.world [(c!"/w/a_1.0.bb", ((Sample.pkgs.take 1).map (fun e => e.stmt.text ++ c!"\n")).flatten ++ c!"inherit k\n" ++ ((Sample.pkgs.drop 2).map (fun e => e.stmt.text ++ c!"\n")).flatten),
  (c!"/w/classes/k.bbclass", (((Sample.pkgs.drop 1).take 1).map (fun e => e.stmt.text ++ c!"\n")).flatten), (c!"/w/a_%.bbappend", (((Sample.pkgs.drop 1).take 1).map (fun e => e.stmt.text ++ c!"\n")).flatten)]

theorem Sample.threeClass_file : InheritingFile Sample.threeClassDisk c!"/w/a_1.0.bb" (Sample.pkgs.take 1) c!"k" (Sample.pkgs.drop 2) := by
  refine inheritingFile_lines (stmt := c!"inherit") (ws := c!" ") rfl (fun e he => Sample.pkgs_ok e ((List.mem_append.1 he).elim List.mem_of_mem_take List.mem_of_mem_drop)) ⟨oneLine_of_chars (by decide) (by decide) (by decide), ?_⟩
    (.inl rfl) ⟨by decide, by decide⟩ ⟨by decide, by decide, by decide, by decide, by decide, by decide⟩
  rintro ⟨a, b, e'⟩
  have h1 : '@' ∈ c!"inherit" ++ (c!" " ++ c!"k") := by rw [← e']; simp
  revert h1; decide

/-- all hypotheses of C125 hold for these three files with a class -/
example (k k' : Nat) (s1 u : Stash) (res res' : List Item) (h : addFile Sample.threeClassDisk k c!"/w/a_1.0.bb" 0 none (Stash.init false false Sample.constants 0) = (.ok res, s1))
    (h' : addFile Sample.threeClassDisk k' c!"/w/a_%.bbappend" 0 none s1 = (.ok res', u)) (hread : res' ≠ []) (D : World)
    (r : List (Str × List Str)) (hr : expandVar D u (some c!"/w/a_1.0.bb") .none .none false = .ok r) : dget c!"E" r = some [c!"e1", c!"e2"] := by
  have hb : setsBase Sample.constants = .ok J.empty := Sample.emptyBase (u := Stash.init false false Sample.constants 0) (by decide +kernel)
  have g2 : EntryFile Sample.threeClassDisk c!"/w/classes/k.bbclass" ((Sample.pkgs.drop 1).take 1) := entryFile_lines rfl (fun e he => Sample.pkgs_ok e (List.mem_of_mem_drop (List.mem_of_mem_take he)))
  have g3 : EntryFile Sample.threeClassDisk c!"/w/a_%.bbappend" ((Sample.pkgs.drop 1).take 1) := entryFile_lines rfl (fun e he => Sample.pkgs_ok e (List.mem_of_mem_drop (List.mem_of_mem_take he)))
  have hq : ClassFound Sample.threeClassDisk (dirname (abspath Sample.threeClassDisk.cwd c!"/w/a_1.0.bb")) c!"k" c!"/w/classes/k.bbclass" :=
    ⟨c!"k.bbclass", .inr ⟨by decide, rfl⟩, .here (.inl ⟨by decide +kernel, by decide +kernel⟩) (by decide)⟩
  have hign : ∀ ign, classIgnore Sample.constants = .ok ign → ign.has c!"k" = false := by
    intro ign h
    have : (match classIgnore Sample.constants with | .ok j => j.has c!"k" | _ => false) = false := by decide +kernel
    rw [h] at this
    exact this
  have a1 : IsFile (abspath Sample.threeClassDisk.cwd c!"/w/a_%.bbappend") c!"a_%" c!".bbappend" := ⟨c!"/w", rfl, by decide⟩
  have a2 : IsFile (abspath Sample.threeClassDisk.cwd c!"/w/a_1.0.bb") c!"a_1.0" c!".bb" := ⟨c!"/w", rfl, by decide⟩
  have a3 : PlainRecipe c!"a_1.0" := by unfold PlainRecipe; decide
  have a4 : Glob c!"a_%" c!"a_1.0" := .char (by decide) (by decide) (.char (by decide) (by decide) (.percent (a := c!"1.0") (by decide) .nil))
  have main := C125_inherit_values_partial Sample.threeClassDisk D false false Sample.constants Sample.usableConstants 0 k k' _ _ _ _ 0 0 none none s1 u res res' (by decide) (by decide) h h' hread _ _ _ _
    Sample.threeClass_file g2 g3 (by decide) (by decide) hq (by decide) hign _ _ a1 ⟨by decide, by decide⟩ a2 a3 a4 r hr .nil hb (by decide) (by decide) _ rfl (by decide) c!"E" none
    (.none hb rfl (by decide))
  obtain ⟨o, h1, h2⟩ := main.2 (.inl (by decide)) (.inl (by decide))
  have := C125_inherit_references_partial Sample.threeClassDisk D false false Sample.constants Sample.usableConstants 0 k k' _ _ _ _ 0 0 none none s1 u res res' (by decide) (by decide) h h' hread _ _ _ _
    Sample.threeClass_file g2 g3 (by decide) (by decide) hq (by decide) hign _ _ a1 ⟨by decide, by decide⟩ a2 a3 a4 .nil hb (by rintro k j ⟨⟩) c!"e1 e2" c!"e1 e2"
    ⟨by decide, by unfold ReadsFile; decide⟩ (.char (by decide) (.char (by decide) (.char (by decide) (.char (by decide) (.char (by decide) .nil)))))
  cases this.symm.trans h1
  rw [h2]
  decide +kernel

/-- the files can be read -/
example : ∀ W ∈ [Sample.threeDisk, Sample.threeClassDisk], (Sample.addAll W [c!"/w/a_1.0.bb", c!"/w/a_%.bbappend"] (Stash.init false false Sample.constants 0)).isSome = true := by decide +kernel
end
end Oelint

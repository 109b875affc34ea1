import Verif.Spec.MeaningAppend
import Verif.Props.MeaningRefs
import Verif.Props.AppendWins
/-! C118: the values of a recipe and its `.bbappend` follow from the two texts. -/
set_option linter.unusedSectionVars false
namespace Oelint
section
variable [Uni]
open Spec

/-- the `Line` of the items of some files moves behind `mx` -/
def reline (f : Str → Bool) (mx : Int) (x : Item) : Item := if f x.origin then { x with line := max x.line (x.inFileLine + mx) } else x

theorem linkRecipe_own {file bn : Str} {mx : Int} {done l : List Item} {s t : Stash} (h : linkRecipe file bn mx done l s = (.ok (), t)) :
    t.items = done ++ l.map (reline (fun o => endsWith c!".bbappend" o && (match matchDyn (appendPattern' o) bn with | .ok true => true | _ => false)) mx) ∧
    t.seenFiles = s.seenFiles ∧ t.seenClasses = s.seenClasses := by
  induction l generalizing done s with
  | nil => rw [linkRecipe] at h; cases h; simp
  | cons x l ih =>
    rw [linkRecipe_cons] at h
    by_cases he : endsWith c!".bbappend" x.origin = true
    · rw [he] at h
      simp only [Bool.not_true, Bool.false_eq_true, if_false] at h
      cases hm : matchDyn (appendPattern' x.origin) bn with
      | error e => rw [hm] at h; cases h
      | ok b =>
        rw [hm] at h
        cases b with
        | false =>
          obtain ⟨h1, h2⟩ := ih h
          refine ⟨?_, h2⟩
          rw [h1, List.map_cons, List.append_assoc]
          congr 2
          simp [reline, hm]
        | true =>
          obtain ⟨h1, h2⟩ := ih h
          refine ⟨?_, h2⟩
          rw [h1, List.map_cons, List.append_assoc]
          congr 2
          simp [reline, hm, he]
    · rw [Bool.not_eq_true] at he
      rw [he] at h
      obtain ⟨h1, h2⟩ := ih (by simpa using h)
      refine ⟨?_, h2⟩
      rw [h1, List.map_cons, List.append_assoc]
      congr 2
      simp [reline, he]

theorem linkAppend_own {file : Str} {l : List Str} {mx r : Int} {s t : Stash} (h : linkAppend file l mx s = (.ok r, t)) :
    t.items = s.items ∧ t.seenFiles = s.seenFiles ∧ t.seenClasses = s.seenClasses := by
  induction l generalizing mx s with
  | nil => rw [linkAppend] at h; cases h; exact ⟨rfl, rfl, rfl⟩
  | cons x l ih =>
    rw [linkAppend_cons] at h
    cases hm : matchDyn (appendPattern file) (basename x) with
    | error e => rw [hm] at h; cases h
    | ok b =>
      rw [hm] at h
      cases b with
      | false => exact ih h
      | true =>
        obtain ⟨h1, h2, h3⟩ := ih h
        exact ⟨h1, h2, h3⟩

theorem reline_none (l : List Item) (mx : Int) : l.map (reline (fun _ => false) mx) = l := by
  have : reline (fun _ => false) mx = id := by funext x; simp [reline]
  rw [this, List.map_id]

theorem crossLink_own {file : Str} {its r : List Item} {s t : Stash} (h : crossLink file its s = (.ok r, t)) :
    (∃ f mx, t.items = s.items.map (reline f mx)) ∧ t.seenFiles = s.seenFiles ∧ t.seenClasses = s.seenClasses := by
  unfold crossLink at h
  split at h
  · obtain ⟨s0, s0', h0, h⟩ := M.bind_ok.1 h
    cases h0
    obtain ⟨mx, s1, h1, h⟩ := M.bind_ok.1 h
    cases h
    obtain ⟨e1, e2⟩ := linkAppend_own h1
    exact ⟨⟨fun _ => false, 0, by rw [reline_none, e1]⟩, e2⟩
  · split at h
    · obtain ⟨s0, s0', h0, h⟩ := M.bind_ok.1 h
      cases h0
      obtain ⟨_, s1, h1, h⟩ := M.bind_ok.1 h
      cases h
      obtain ⟨e1, e2⟩ := linkRecipe_own h1
      exact ⟨⟨_, _, by simpa using e1⟩, e2⟩
    · cases h
      exact ⟨⟨fun _ => false, 0, (reline_none _ _).symm⟩, rfl, rfl⟩

/-- what a file that loads no other does to the stash -/
theorem addFile_own {W : World} {n : Nat} {path : Str} {off : Int} {forced : Option Str} {s u : Stash} {r : List Item}
    (hnew : alreadySeen s (abspath W.cwd path) = false) (h : addFile W n path off forced s = (.ok r, u)) (hr : ∀ x ∈ r, loadedBy x = []) :
    (∃ f mx, u.items = s.items.map (reline f mx) ++ r) ∧ u.seenFiles = (markSeen s (abspath W.cwd path)).seenFiles ∧
      u.seenClasses = (markSeen s (abspath W.cwd path)).seenClasses := by
  cases n with
  | zero => cases h
  | succ n =>
  obtain ⟨hs, -⟩ | ⟨-, ⟨ok⟩⟩ := addFile_ok W h
  · rw [hnew] at hs; cases hs
  have key : ∀ {l k : List Item}, l.map content = k.map content → (∀ x ∈ l, loadedBy x = []) → ∀ x ∈ k, loadedBy x = [] := by
    intro l k e hl x hx
    have : content x ∈ l.map content := e ▸ List.mem_map_of_mem hx
    obtain ⟨y, hy, he⟩ := List.mem_map.1 this
    have hp : y.payload = x.payload := show (content y).payload = (content x).payload by rw [he]
    have := hl y hy
    unfold loadedBy at this ⊢
    rwa [hp] at this
  obtain ⟨k, e1⟩ := itemsLoop_idle _ _ _ _ _ _ _ _ _ _ ok.loop (key (crossLink_content ok.cross) hr)
  obtain ⟨⟨f, mx, c1⟩, c2, c3⟩ := crossLink_own ok.cross
  have d := addDistroMachine_rel (R := fun s s' => s'.items = s.items ∧ s'.seenFiles = s.seenFiles ∧ s'.seenClasses = s.seenClasses) (fun _ => ⟨rfl, rfl, rfl⟩)
    (fun _ _ _ h1 h2 => ⟨h2.1.trans h1.1, h2.2.1.trans h1.2.1, h2.2.2.trans h1.2.2⟩) (fun _ _ => ⟨rfl, rfl, rfl⟩) W (abspath W.cwd path) ok.s3
  rw [ok.distro] at d
  obtain ⟨d1, d2, d3⟩ := d
  simp only at c1 c2 c3 d1 d2 d3
  rw [e1] at c1 c2 c3
  rw [ok.final]
  refine ⟨⟨f, mx, ?_⟩, ?_, ?_⟩
  · show ok.s4.items ++ r = _
    rw [d1, c1]
    rfl
  · exact d2.trans c2
  · exact d3.trans c3

theorem reline_entry {f : Str → Bool} {mx : Int} {res : List Item} {es : List Entry} (h : List.Forall₂ EntryItem res es) : List.Forall₂ EntryItem (res.map (reline f mx)) es := by
  rw [List.forall₂_map_left_iff]
  refine h.imp fun x e he => ?_
  have h1 : (reline f mx x).payload = x.payload ∧ (reline f mx x).delim = x.delim := by unfold reline; split <;> exact ⟨rfl, rfl⟩
  cases he with
  | decl hv hn hs ht ho hop hb hap hvn => exact .decl (h1.1.trans hv) (by rw [h1.2]; exact hn) hs ht ho hop hb hap hvn
  | other hc => exact .other (by rw [h1.1]; exact hc)

theorem reline_origin (f : Str → Bool) (mx : Int) (x : Item) : (reline f mx x).origin = x.origin := by unfold reline; split <;> rfl

theorem decls_append (es es' : List Entry) : decls (es ++ es') = decls es ++ decls es' := by
  induction es with
  | nil => rfl
  | cons e es ih => cases e <;> simp [decls, ih]

/-- one entry on each line -/
theorem entryFile_lines {W : World} {path : Str} {es : List Entry} (hf : W.file (abspath W.cwd path) = .text (es.map (fun e => e.stmt.text ++ c!"\n")).flatten)
    (hes : ∀ e ∈ es, e.Ok ∧ OneLine e.stmt.text ∧ ¬ c!"${@" <:+: e.stmt.text) : EntryFile W path es := by
  have heq : (es.map Entry.stmt).map (fun st => st.text ++ c!"\n") = es.map (fun e => e.stmt.text ++ c!"\n") := by rw [List.map_map]; rfl
  obtain ⟨g1, g2, g3⟩ := one_line_groups (sts := es.map Entry.stmt) (by
    intro st hst
    obtain ⟨e, he, rfl⟩ := List.mem_map.1 hst
    exact (hes e he).2)
  rw [heq] at g1 g2
  refine ⟨_, _, _, hf, g1, g2, ?_⟩
  rw [List.map_map, List.forall₂_map_left_iff, List.forall₂_same]
  intro e he
  simp only [Function.comp, List.flatten_cons, List.flatten_nil, List.append_nil]
  obtain ⟨k1, k2⟩ := g3 e.stmt (List.mem_map_of_mem he)
  exact ⟨k1, k2, (hes e he).1⟩

/-- two files of entries are read into a fresh stash -/
theorem pair_read {W : World} {ns neg : Bool} {consts : J} (hu : UsableConstants consts) {uid k k' : Nat} {p q : Str} {off off' : Int} {forced forced' : Option Str} {s1 u : Stash}
    {res res' : List Item} {es es' : List Entry} (hpq : abspath W.cwd q ≠ abspath W.cwd p)
    (h : addFile W k p off forced (Stash.init ns neg consts uid) = (.ok res, s1)) (hf : EntryFile W p es)
    (h' : addFile W k' q off' forced' s1 = (.ok res', u)) (hf' : EntryFile W q es') :
    ∃ a, u.items = a ++ res' ∧ List.Forall₂ EntryItem a es ∧ List.Forall₂ EntryItem res' es' ∧ (∀ x ∈ a, x.origin = abspath W.cwd p) ∧ (∀ x ∈ res', x.origin = abspath W.cwd q) ∧
      a.Pairwise (fun x y => x.line < y.line) ∧ res'.Pairwise (fun x y => x.line < y.line) ∧ setsBase u.consts = setsBase consts := by
  obtain ⟨t, ls, gs, f1, f2, f3, f4⟩ := hf.text
  obtain ⟨t', ls', gs', f1', f2', f3', f4'⟩ := hf'.text
  have hnew : alreadySeen (Stash.init ns neg consts uid) (abspath W.cwd p) = false := by simp [alreadySeen, Stash.init]
  obtain ⟨hE, hI⟩ := file_entries h hnew f1 f2 f3 f4
  obtain ⟨⟨g, mx, i1⟩, i2, i3⟩ := addFile_own hnew h hI
  have hnew' : alreadySeen s1 (abspath W.cwd q) = false := by
    unfold alreadySeen
    rw [i2, i3]
    unfold markSeen
    simp only [Stash.init, List.contains_nil, Bool.false_eq_true, if_false, List.nil_append]
    split <;> simp [hpq]
  obtain ⟨hE', hI'⟩ := file_entries h' hnew' f1' f2' f3' f4'
  obtain ⟨⟨g', mx', j1⟩, -, -⟩ := addFile_own hnew' h' hI'
  have c0 : ConstsOf consts (Stash.init ns neg consts uid) := ⟨hu, otherNames_refl _⟩
  have c1 : ConstsOf consts s1 := by
    have := addFile_constsOf_any (W := W) c0 k p off forced
    rwa [h] at this
  have c2 : ConstsOf consts u := by
    have := addFile_constsOf_any (W := W) c1 k' q off' forced'
    rwa [h'] at this
  have ho := ((C03_one_item_per_chunk W k p off forced _ _ res h).2 t hnew f1).2
  have ho' := ((C03_one_item_per_chunk W k' q off' forced' _ _ res' h').2 t' hnew' f1').2
  obtain ⟨-, l1, l2⟩ := C02_lines W k p off forced _ _ res _ h hnew f1
  obtain ⟨-, l1', -⟩ := C02_lines W k' q off' forced' _ _ res' _ h' hnew' f1'
  rw [i1] at j1
  refine ⟨_, j1, reline_entry (by simpa [Stash.init] using hE), hE', ?_, ho', ?_, l1', ?_⟩
  · intro x hx
    simp only [Stash.init, List.map_nil, List.nil_append, List.mem_map] at hx
    obtain ⟨y, hy, rfl⟩ := hx
    rw [reline_origin]
    exact ho y hy
  · simp only [Stash.init, List.map_nil, List.nil_append]
    rw [List.pairwise_map]
    have := l1.and l2
    refine this.imp_of_mem fun {x y} hx hy hxy => ?_
    have e : x.origin = y.origin := (ho x hx).trans (ho y hy).symm
    unfold reline
    rw [e]
    split
    · show max x.line _ < max y.line _
      omega
    · exact hxy.1
  · exact (twin_names W).sets (s' := { (Stash.init ns neg consts uid) with consts := u.consts }) (constsOf_names c0 c2)

theorem two_forward {W : World} {s s1 u : Stash} {p q : Str} {k k' : Nat} {off off' : Int} {forced forced' : Option Str} {res res' : List Item} (h0 : 0 ≤ off) (h0' : 0 ≤ off')
    (h : addFile W k p off forced s = (.ok res, s1)) (h' : addFile W k' q off' forced' s1 = (.ok res', u)) : History W Call.forward s u := by
  have a := History.snoc (P := Call.forward) (History.nil (W := W) (s := s)) k (.addFile p off forced) h0
  have e : (Call.addFile p off forced).after W k s = s1 := by
    show (addFile W k p off forced s).2 = s1
    rw [h]
  rw [e] at a
  have b := History.snoc a k' (.addFile q off' forced') h0'
  have e : (Call.addFile q off' forced').after W k' s1 = u := by
    show (addFile W k' q off' forced' s1).2 = u
    rw [h']
  rwa [e] at b

/-- the stash has the entries of the recipe, then those of the `.bbappend` -/
theorem both_read {W : World} {ns neg : Bool} {consts : J} (hu : UsableConstants consts) {uid : Nat} {p q : Str} {u : Stash} {es es' : List Entry}
    (h : BothAdded W (Stash.init ns neg consts uid) p q u) (hf : EntryFile W p es) (hf' : EntryFile W q es') (hne : es ≠ [])
    {stem n : Str} (ha : IsFile (abspath W.cwd q) stem c!".bbappend") (hs : PlainAppend stem) (hx : IsFile (abspath W.cwd p) n c!".bb") (hn : PlainRecipe n) (hg : Glob stem n) :
    ∃ its, RecipeRead consts (abspath W.cwd p) u its (es ++ es') := by
  have hpq : abspath W.cwd q ≠ abspath W.cwd p := by
    intro e
    rw [e] at ha
    obtain ⟨a, h1⟩ := isFile_suffix ha
    obtain ⟨b, h2⟩ := isFile_suffix hx
    have := congrArg List.getLast? (h1.trans h2.symm)
    simp at this
  have main : ∀ a b : List Item, (∀ x, x ∈ u.items ↔ x ∈ a ++ b) → History W Call.forward (Stash.init ns neg consts uid) u → List.Forall₂ EntryItem a es → List.Forall₂ EntryItem b es' →
      (∀ x ∈ a, x.origin = abspath W.cwd p) → (∀ x ∈ b, x.origin = abspath W.cwd q) → a.Pairwise (fun x y => x.line < y.line) → b.Pairwise (fun x y => x.line < y.line) →
      setsBase u.consts = setsBase consts → RecipeRead consts (abspath W.cwd p) u (a ++ b) (es ++ es') := by
    intro a b hi hh hA hB oa ob la lb hc
    obtain ⟨j, hj⟩ : ∃ j, j ∈ a := by
      cases hA with
      | nil => exact absurd rfl hne
      | cons => exact ⟨_, List.mem_cons_self⟩
    refine ⟨hi, List.rel_append hA hB, fun x hxm => ?_, ?_, hc⟩
    · rcases List.mem_append.1 hxm with hm | hm
      · exact .inl (oa x hm)
      · have := C41_matching_linked_partial W ns neg consts uid u hh x j ((hi x).2 hxm) ((hi j).2 (by simp [hj])) stem n (by rw [ob x hm]; exact ha) hs (by rw [oa j hj]; exact hx) hn hg
        rw [oa j hj] at this
        refine .inr ⟨rfl, ?_⟩
        unfold links at this
        cases hd : dget (abspath W.cwd p) u.map with
        | none => rw [hd] at this; cases this
        | some fs => rw [hd] at this; exact ⟨fs, rfl, this⟩
    · rw [List.pairwise_append]
      refine ⟨la, lb, fun x hxm y hym => ?_⟩
      exact C42_append_after_recipe W ns neg consts uid u hh y x ((hi y).2 (by simp [hym])) ((hi x).2 (by simp [hxm])) stem n (by rw [ob y hym]; exact ha) hs (by rw [oa x hxm]; exact hx) hn hg
  cases h with
  | recipeFirst h0 h0' h1 h2 =>
    obtain ⟨a, i, e1, e2, o1, o2, l1, l2, hc⟩ := pair_read hu hpq h1 hf h2 hf'
    exact ⟨_, main a _ (fun x => by rw [i]) (two_forward h0 h0' h1 h2) e1 e2 o1 o2 l1 l2 hc⟩
  | appendFirst h0 h0' h1 h2 =>
    obtain ⟨a, i, e1, e2, o1, o2, l1, l2, hc⟩ := pair_read hu hpq.symm h1 hf' h2 hf
    exact ⟨_, main _ a (fun x => by rw [i, List.mem_append, List.mem_append]; exact or_comm) (two_forward h0' h0 h1 h2) e2 e1 o2 o1 l2 l1 hc⟩

/-- **C118** A recipe and a `.bbappend` whose name fits, both files of entries, are added to a fresh stash, in one order or the other. `ExpandVar` for the recipe then gives items for exactly the
variables with a value by the declarations of the recipe followed by those of the `.bbappend`, and for each the items of the expansion of the text that follows from these declarations. -/
theorem C118_values (W D : World) (ns neg : Bool) (consts : J) (hu : UsableConstants consts) (uid : Nat) (p q : Str) (u : Stash) (es es' : List Entry)
    (h : BothAdded W (Stash.init ns neg consts uid) p q u) (hf : EntryFile W p es) (hf' : EntryFile W q es') (hne : es ≠ [])
    (stem name : Str) (ha : IsFile (abspath W.cwd q) stem c!".bbappend") (hs : PlainAppend stem) (hx : IsFile (abspath W.cwd p) name c!".bb") (hn : PlainRecipe name) (hg : Glob stem name)
    (r : List (Str × List Str)) (hr : expandVar D u (some (abspath W.cwd p)) .none .none false = .ok r)
    (b : KV) (hb : setsBase consts = .ok (.dict b)) (hbn : b.keys.Nodup) (hbk : ∀ x ∈ b.keys, '$' ∉ x ∧ '(' ∉ x) (ds : List Decl) (hds : ds = decls es ++ decls es')
    (hdn : ∀ d ∈ ds, '$' ∉ d.name ∧ '(' ∉ d.name) (n : Str) (start : Option Str) (hst : Base (Stash.init ns neg consts uid) (abspath W.cwd p) n start) :
    ((dget n r).isSome = true ↔ Given n start ds) ∧
    (Given n start ds → byOperators n start ds ≠ none ∨ texts n c!"remove" ds = [] →
      ∃ o, expandTerm D u (abspath W.cwd p) (without ((texts n c!"prepend" ds).reverse.flatten ++ (byOperators n start ds).getD [] ++ (texts n c!"append" ds).flatten)
        (texts n c!"remove" ds)) = .ok o ∧ dget n r = some (safeLinesplit o)) := by
  obtain ⟨its, R⟩ := both_read hu h hf hf' hne ha hs hx hn hg
  have e : decls (es ++ es') = ds := (decls_append es es').trans hds.symm
  have := R.values hr hb hbn hbk (by rw [e]; exact hdn) (R.start rfl hst)
  rwa [e] at this

/-- **C118** (references). `ExpandTerm` for the recipe replaces the references of a text as the declarations of the recipe followed by those of the `.bbappend` say. -/
theorem C118_references (W D : World) (ns neg : Bool) (consts : J) (hu : UsableConstants consts) (uid : Nat) (p q : Str) (u : Stash) (es es' : List Entry)
    (h : BothAdded W (Stash.init ns neg consts uid) p q u) (hf : EntryFile W p es) (hf' : EntryFile W q es') (hne : es ≠ [])
    (stem name : Str) (ha : IsFile (abspath W.cwd q) stem c!".bbappend") (hs : PlainAppend stem) (hx : IsFile (abspath W.cwd p) name c!".bb") (hn : PlainRecipe name) (hg : Glob stem name)
    (b : KV) (hb : setsBase consts = .ok (.dict b)) (hd : ∀ k j, b.get k = some j → ∃ t, j = .str t) (value o : Str) (hc : NoCalls value)
    (ho : Filled b (decls es ++ decls es') (abspath W.cwd p) value o) : expandTerm D u (abspath W.cwd p) value = .ok o := by
  obtain ⟨its, R⟩ := both_read hu h hf hf' hne ha hs hx hn hg
  rw [← decls_append] at ho
  exact C51_expansion_substitutes D u _ [] value o _ (R.base.trans hb) hc (R.filled hb hd ho)

/-- **C118** (order). Which of the two files is added first does not matter. -/
theorem C118_order (W D : World) (ns neg ns' neg' : Bool) (consts : J) (hu : UsableConstants consts) (uid uid' : Nat) (p q : Str) (u u' : Stash) (es es' : List Entry)
    (h : BothAdded W (Stash.init ns neg consts uid) p q u) (h' : BothAdded W (Stash.init ns' neg' consts uid') p q u')
    (hf : EntryFile W p es) (hf' : EntryFile W q es') (hne : es ≠ [])
    (stem name : Str) (ha : IsFile (abspath W.cwd q) stem c!".bbappend") (hs : PlainAppend stem) (hx : IsFile (abspath W.cwd p) name c!".bb") (hn : PlainRecipe name) (hg : Glob stem name)
    (b : KV) (hb : setsBase consts = .ok (.dict b)) (hd : ∀ k j, b.get k = some j → ∃ t, j = .str t) (rank : Str → Nat) (hr : Ranked b (decls es ++ decls es') rank)
    (hempty : stands b (decls es ++ decls es') [] = none) (hff : ∀ n t, FromFileName (abspath W.cwd p) n t → '$' ∉ t) (value : Str) (names : List Str) (hw : Written value names) (hc : NoCalls value) :
    expandTerm D u (abspath W.cwd p) value = expandTerm D u' (abspath W.cwd p) value := by
  obtain ⟨its, R⟩ := both_read hu h hf hf' hne ha hs hx hn hg
  obtain ⟨its', R'⟩ := both_read hu h' hf hf' hne ha hs hx hn hg
  rw [← decls_append] at hr hempty
  have hA : Acyclic D u (abspath W.cwd p) rank := by
    intro n t hn
    by_cases hne : n = []
    · subst hne
      exact absurd hempty (R.defined_some hb hd hn)
    · exact hr n t ((R.defined hb hd hne).2 hn)
  obtain ⟨o, h1, h2, -⟩ := C51_acyclic_definitions D u _ [] value names b (R.base.trans hb) hd rank hA hff hw hc
  have h3 := C51_expansion_substitutes D u' _ [] value o _ (R'.base.trans hb) hc (R'.filled hb hd (R.expands hb hd h1))
  exact Eq.trans h2 h3.symm
end

section
attribute [local instance] Sample.asciiUni
open Spec

/-- a recipe -/
def Sample.pairRecipe : List Entry := [ .decl ⟨c!"A", [], c!"=", c!"1"⟩, .other (.blank []), .decl ⟨c!"B", [], c!"=", c!"${A}"⟩, .decl ⟨c!"A", [c!"append"], c!"=", c!"-"⟩ ]
/-- its `.bbappend` -/
def Sample.pairAppend : List Entry := [ .decl ⟨c!"B", [c!"append"], c!"=", c!" x"⟩, .decl ⟨c!"A", [], c!"=", c!"2"⟩, .decl ⟨c!"C", [], c!"+=", c!"3"⟩ ]
/-- the disk with both -/
def Sample.pairDisk : World := Sample.world [(c!"/w/a_1.0.bb", (Sample.pairRecipe.map (fun e => e.stmt.text ++ c!"\n")).flatten),
  (c!"/w/a_%.bbappend", (Sample.pairAppend.map (fun e => e.stmt.text ++ c!"\n")).flatten)]

theorem Sample.pair_ok : ∀ e ∈ Sample.pairRecipe ++ Sample.pairAppend, e.Ok ∧ OneLine e.stmt.text ∧ ¬ c!"${@" <:+: e.stmt.text := by
  have hin : ∀ e ∈ Sample.pairRecipe ++ Sample.pairAppend, '@' ∉ e.stmt.text := by decide +kernel
  have hone : ∀ e ∈ Sample.pairRecipe ++ Sample.pairAppend, (∀ c ∈ e.stmt.text, c ≠ '\n' ∧ c ≠ '\r' ∧ c ≠ '\\' ∧ c ≠ '(') ∧ e.stmt.text.head? ≠ some '#' ∧
      ¬ c!"def " <+: (e.stmt.text ++ c!"\n").dropWhile pySpace := by decide +kernel
  intro e he
  refine ⟨?_, oneLine_of_chars (hone e he).1 (hone e he).2.1 (hone e he).2.2, ?_⟩
  · simp only [Sample.pairRecipe, Sample.pairAppend, List.cons_append, List.nil_append, List.mem_cons, List.not_mem_nil, or_false] at he
    rcases he with rfl | rfl | rfl | rfl | rfl | rfl | rfl <;>
      first
      | exact ⟨by show Tabs _; unfold Tabs; decide, rfl⟩
      | exact Sample.entry (by decide) (by decide) (by decide) (by decide) (by decide) (by decide)
  · rintro ⟨a, b, e'⟩
    exact hin e he (by rw [← e']; simp)

/-- all hypotheses of C118 hold for these two files, whichever is added first -/
example (u : Stash) (h : BothAdded Sample.pairDisk (Stash.init false false Sample.constants 0) c!"/w/a_1.0.bb" c!"/w/a_%.bbappend" u) (D : World) (r : List (Str × List Str))
    (hr : expandVar D u (some c!"/w/a_1.0.bb") .none .none false = .ok r) :
    dget c!"A" r = some [c!"2-"] ∧ dget c!"B" r = some [c!"1", c!"x"] ∧ dget c!"C" r = some [c!"3"] := by
  have hb : setsBase Sample.constants = .ok J.empty := Sample.emptyBase (u := Stash.init false false Sample.constants 0) (by decide +kernel)
  have f1 : EntryFile Sample.pairDisk c!"/w/a_1.0.bb" Sample.pairRecipe := entryFile_lines rfl (fun e he => Sample.pair_ok e (List.mem_append_left _ he))
  have f2 : EntryFile Sample.pairDisk c!"/w/a_%.bbappend" Sample.pairAppend := entryFile_lines rfl (fun e he => Sample.pair_ok e (List.mem_append_right _ he))
  have a1 : IsFile (abspath Sample.pairDisk.cwd c!"/w/a_%.bbappend") c!"a_%" c!".bbappend" := ⟨c!"/w", rfl, by decide⟩
  have a2 : IsFile (abspath Sample.pairDisk.cwd c!"/w/a_1.0.bb") c!"a_1.0" c!".bb" := ⟨c!"/w", rfl, by decide⟩
  have a3 : PlainRecipe c!"a_1.0" := by unfold PlainRecipe; decide
  have a4 : Glob c!"a_%" c!"a_1.0" := .char (by decide) (by decide) (.char (by decide) (by decide) (.percent (a := c!"1.0") (by decide) .nil))
  have main := fun n hn => C118_values Sample.pairDisk D false false Sample.constants Sample.usableConstants 0 _ _ u _ _ h f1 f2 (by decide) _ _ a1 ⟨by decide, by decide⟩ a2 a3 a4 r hr .nil hb
    (by decide) (by decide) _ rfl (by decide) n none (.none hb rfl hn)
  have refs := fun v o hc ho => C118_references Sample.pairDisk D false false Sample.constants Sample.usableConstants 0 _ _ u _ _ h f1 f2 (by decide) _ _ a1 ⟨by decide, by decide⟩ a2 a3 a4 .nil hb
    (by rintro k j ⟨⟩) v o hc ho
  refine ⟨?_, ?_, ?_⟩
  · obtain ⟨o, h1, h2⟩ := (main c!"A" (by decide)).2 (.inl (by decide)) (.inl (by decide))
    have := refs c!"2-" c!"2-" ⟨by decide, by unfold ReadsFile; decide⟩ (.char (by decide) (.char (by decide) .nil))
    cases this.symm.trans h1
    rw [h2]
    decide +kernel
  · obtain ⟨o, h1, h2⟩ := (main c!"B" (by decide)).2 (.inl (by decide)) (.inl (by decide))
    have := refs c!"${A} x" c!"1 x" ⟨by decide, by unfold ReadsFile; decide⟩
      (.text (n := c!"A") (t := c!"1") (v := c!"1") (r := c!" x") (Sample.name _ (by decide)) (by decide) ⟨by decide, by unfold ReadsFile; decide⟩ (.char (by decide) .nil)
        (.char (by decide) (.char (by decide) .nil)))
    cases this.symm.trans h1
    rw [h2]
    decide +kernel
  · obtain ⟨o, h1, h2⟩ := (main c!"C" (by decide)).2 (.inl (by decide)) (.inl (by decide))
    have := refs c!" 3" c!" 3" ⟨by decide, by unfold ReadsFile; decide⟩ (.char (by decide) (.char (by decide) .nil))
    cases this.symm.trans h1
    rw [h2]
    decide +kernel

/-- both orders can be taken, and the calls do not fail -/
example : ∀ ps ∈ [[c!"/w/a_1.0.bb", c!"/w/a_%.bbappend"], [c!"/w/a_%.bbappend", c!"/w/a_1.0.bb"]], ((Sample.addAll Sample.pairDisk ps (Stash.init false false Sample.constants 0)).bind fun u =>
    (expandVar (Sample.world []) u (some c!"/w/a_1.0.bb") .none .none false).toOption.map (fun e => (dget c!"A" e, dget c!"B" e))) = some (some [c!"2-"], some [c!"1", c!"x"]) := by
  decide +kernel
end
end Oelint

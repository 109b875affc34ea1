import Verif.Lemmas.LayoutFile
import Verif.Props.Edit
import Verif.Props.Statements
import Verif.Props.Undisturbed
/-!
# C107: values come from assignments and inherited classes, in their order

Values, package names and the like depend on what the statements say that assign or unset variables or inherit classes, and on the order of
their `Line`s. They depend neither on the `Line`s themselves nor on comments, blank lines, functions, tasks and flags.
-/
set_option linter.unusedSectionVars false
namespace Oelint
open Spec

section
variable [Uni]

/-- **C107** Two stashes hold the same items of the kinds `Variable`, `Unset` and `Inherit`, in the same order of `Line`s, whatever the `Line`s
are and whatever other items there are; links and settings are the same. Then every question about values and names has the same answer (exceptions included) on the same
disk, and `GetItemsFor` lists the same statements if it asks for such items. -/
theorem C107_order_only (s s' : Stash) (l l' : List Item) (hl : Lined s l) (hl' : Lined s' l') (hsame : l.map said = l'.map said)
    (hm : s'.map = s.map) (hc : s'.consts = s.consts) (W : World) :
    (∀ q : Question, q.aboutValues → q.fresh W s' = q.fresh W s) ∧
    (∀ g, AsksCounting g → (getItemsFor W s' g).map said = (getItemsFor W s g).map said) := by
  have h : SameOrder s s' l l' := ⟨hl, hl', hsame, hm, by rw [hc], by rw [hc], by rw [hc], by rw [hc]⟩
  refine ⟨fun q hq => h.answer W hq, fun g hg => ?_⟩
  have := h.get W hg
  generalize getItemsFor W s g = a at this
  generalize getItemsFor W s' g = b at this
  induction this with
  | nil => rfl
  | cons h _ ih => rw [List.map_cons, List.map_cons, ih, show said _ = said _ from h]

theorem said_of_content {l l' : List Item} (h : l.map content = l'.map content) : l.map said = l'.map said := by
  have : ∀ k : List Item, k.map said = (k.map content).map said := fun k => by rw [List.map_map]; rfl
  rw [this l, this l', h]

theorem said_of_shifted {d : Int} {l l' : List Item} (h : l.map (shifted d) = l'.map content) : l.map said = l'.map said := by
  have : ∀ k : List Item, k.map said = (k.map content).map said := fun k => by rw [List.map_map]; rfl
  have h2 : l.map said = (l.map (shifted d)).map said := by rw [List.map_map]; rfl
  rw [h2, this l', h]

theorem said_filter {l l' : List Item} (h : l.map said = l'.map said) :
    (l.filter (fun x => decide (Counts x))).map said = (l'.filter (fun x => decide (Counts x))).map said := by
  have := forall₂_filter (p := fun x => decide (Counts x)) (q := fun x => decide (Counts x)) (fun x y (e : said x = said y) => decide_eq_decide.2 <| by
    unfold Counts; rw [show x.payload = y.payload from (show (said x).payload = (said y).payload by rw [e])]) (forall₂_of_map_eq h)
  generalize l.filter _ = a at this
  generalize l'.filter _ = b at this
  induction this with
  | nil => rfl
  | cons h _ ih => rw [List.map_cons, List.map_cons, ih, show said _ = said _ from h]

theorem filter_others {l : List Item} (h : ∀ x ∈ l, ¬ Counts x) : l.filter (fun x => decide (Counts x)) = [] := by
  rw [List.filter_eq_nil_iff]
  intro x hx
  simp [h x hx]

theorem comment_not_counts {x : Item} (h : x.payload = .comment) : ¬ Counts x := by
  unfold Counts; rw [h]; decide

/-- the parts of the items of an edited file -/
theorem edited_parts {r : List Item} {a m b : List (List Str)} (h : r.map (·.realRaw) = (a ++ m ++ b).map List.flatten) :
    ∃ A M B, r = A ++ M ++ B ∧ A = r.take a.length ∧ M = (r.drop a.length).take m.length ∧ A ++ M = r.take (a.length + m.length) ∧ B = r.drop (a.length + m.length) ∧
      M.map (·.realRaw) = m.map List.flatten := by
  refine ⟨r.take a.length, (r.drop a.length).take m.length, r.drop (a.length + m.length), ?_, rfl, rfl, ?_, rfl, ?_⟩
  · rw [List.append_assoc, ← List.drop_drop, List.take_append_drop, List.take_append_drop]
  · rw [List.take_add]
  · rw [List.map_take, List.map_drop, h]
    simp only [List.append_assoc, List.map_append]
    rw [show a.length = (a.map List.flatten).length by simp, List.drop_left, show m.length = (m.map List.flatten).length by simp, List.take_left]

/-- **C107** (partial) Two versions of a file differ in the statements `m` and `m'` only, in the same place, and none of these assigns or unsets a
variable or inherits classes: they may be functions, tasks, flags, blank lines, comments. Each version is read into a fresh stash with the
same settings, and loads no other file. Then every question about values and names has the same
answer for both (on the same disk, exceptions included), unless the edit changes whether the new override syntax is in use by then.
As in `C102_edit`, the names after `include`, `require`, `inherit` refer to variables in `V` only, and none of these is assigned.
Missing: files that load others; with two includes the claim is false of the code (below). -/
theorem C107_edit_partial (W : World) (g : Str → FileRes) (V : Str → Prop) (ns neg : Bool) (consts : J) (hu : UsableConstants consts)
    (hc : SetsWithin consts V) (uid uid' : Nat) (u u' : Stash) (path t t' : Str)
    (hw : FileWithin W V (abspath W.cwd path)) (hw' : FileWithin (rewritten W g) V (abspath W.cwd path))
    (ht : NoneAssigned V u) (ht' : NoneAssigned V u')
    (hf : W.file (abspath W.cwd path) = .text t) (hf' : g (abspath W.cwd path) = .text t') (ls ls' : List Str)
    (hl : IsLines (univNewlines t) ls) (hl' : IsLines (univNewlines t') ls') (a m m' b : List (List Str))
    (hg : Groups ls (a ++ m ++ b)) (hg' : Groups ls' (a ++ m' ++ b))
    (n n' : Nat) (off off' : Int) (forced : Option Str) (r r' : List Item)
    (h : addFile W n path off forced (Stash.init ns neg consts uid) = (.ok r, u))
    (h' : addFile (rewritten W g) n' path off' forced (Stash.init ns neg consts uid') = (.ok r', u'))
    (hM : ∀ x ∈ (r.drop a.length).take m.length, ¬ Counts x) (hM' : ∀ x ∈ (r'.drop a.length).take m'.length, ¬ Counts x)
    (hn : ns = true ∨ (SomeNew (r.take (a.length + m.length)) ↔ SomeNew (r'.take (a.length + m'.length))))
    (hr : ∀ x ∈ r, loadedBy x = []) (hr' : ∀ x ∈ r', loadedBy x = []) (D : World) :
    (∀ q : Question, q.aboutValues → q.fresh D u' = q.fresh D u) ∧
    (∀ f, AsksCounting f → (getItemsFor D u' f).map said = (getItemsFor D u f).map said) := by
  have hnew : alreadySeen (Stash.init ns neg consts uid) (abspath W.cwd path) = false := by simp [alreadySeen, Stash.init]
  have hnew' : alreadySeen (Stash.init ns neg consts uid') (abspath W.cwd path) = false := by simp [alreadySeen, Stash.init]
  obtain ⟨-, -, q3, q4⟩ := C102_edit W g V ns neg consts hu hc uid uid' (fun _ => True) (fun _ => True) _ _ u u' .nil .nil path t t' hnew hnew' hw hw' ht ht'
    hf hf' ls ls' hl hl' a m m' b hg hg' n n' off off' forced forced r r' h h'
  have split : ∀ (r : List Item) (i j : Nat), r = r.take i ++ (r.drop i).take j ++ r.drop (i + j) := fun r i j => by
    rw [List.append_assoc, ← List.drop_drop, List.take_append_drop, List.take_append_drop]
  have hsame : (r.filter (fun x => decide (Counts x))).map said = (r'.filter (fun x => decide (Counts x))).map said := by
    rw [split r a.length m.length, split r' a.length m'.length, List.filter_append, List.filter_append, List.filter_append, List.filter_append,
      filter_others hM, filter_others hM', List.append_nil,
      List.append_nil, List.map_append, List.map_append, said_filter (said_of_shifted (q4 hn)), said_filter (said_of_content q3)]
  obtain ⟨k1, k2, k3⟩ := addFile_idle (W := W) (W' := rewritten W g) (s := Stash.init ns neg consts uid) (s' := Stash.init ns neg consts uid')
    rfl rfl rfl rfl hnew hnew' h h' hr hr'
  have hlin := (C02_lines W n path off forced _ _ r _ h hnew hf).2.1
  have hlin' := (C02_lines (rewritten W g) n' path off' forced _ _ r' _ h' hnew' hf').2.1
  have c1 : ConstsOf consts u := by
    have := addFile_constsOf_any (W := W) (db := consts) (s := Stash.init ns neg consts uid) ⟨hu, otherNames_refl _⟩ n path off forced
    rwa [h] at this
  have c2 : ConstsOf consts u' := by
    have := addFile_constsOf_any (W := rewritten W g) (db := consts) (s := Stash.init ns neg consts uid') ⟨hu, otherNames_refl _⟩ n' path off' forced
    rwa [h'] at this
  have names := constsOf_names c1 c2
  have ord : SameOrder u u' (r.filter (fun x => decide (Counts x))) (r'.filter (fun x => decide (Counts x))) := by
    refine ⟨⟨hlin.filter _, fun x => ?_⟩, ⟨hlin'.filter _, fun x => ?_⟩, hsame, k3, ?_, ?_, ?_, ?_⟩
    · rw [List.mem_filter, k1, decide_eq_true_iff]
    · rw [List.mem_filter, k2, decide_eq_true_iff]
    · exact (twin_names W).sets (s' := { u with consts := u'.consts }) names
    · exact (twin_names W).mirrors (s' := { u with consts := u'.consts }) names
    · exact (twin_names W).imgClasses (s' := { u with consts := u'.consts }) names
    · exact (twin_names W).imgVars (s' := { u with consts := u'.consts }) names
  refine ⟨fun q hq => ord.answer D hq, fun f hf => ?_⟩
  have := ord.get D hf
  generalize getItemsFor D u f = a at this
  generalize getItemsFor D u' f = b at this
  induction this with
  | nil => rfl
  | cons h _ ih => rw [List.map_cons, List.map_cons, ih, show said _ = said _ from h]

/-- **C107** (partial) Comments: if `m` and `m'` are blocks of comments (or nothing), then every question about values and names has the same
answer for both versions of the file. Missing: files that load others, as above. -/
theorem C107_comments_partial (W : World) (g : Str → FileRes) (V : Str → Prop) (ns neg : Bool) (consts : J) (hu : UsableConstants consts)
    (hc : SetsWithin consts V) (uid uid' : Nat) (u u' : Stash) (path t t' : Str)
    (hw : FileWithin W V (abspath W.cwd path)) (hw' : FileWithin (rewritten W g) V (abspath W.cwd path))
    (ht : NoneAssigned V u) (ht' : NoneAssigned V u')
    (hf : W.file (abspath W.cwd path) = .text t) (hf' : g (abspath W.cwd path) = .text t') (ls ls' : List Str)
    (hl : IsLines (univNewlines t) ls) (hl' : IsLines (univNewlines t') ls') (a m m' b : List (List Str))
    (hg : Groups ls (a ++ m ++ b)) (hg' : Groups ls' (a ++ m' ++ b)) (hcom : ∀ x ∈ m ++ m', StartsWithHash x.flatten)
    (n n' : Nat) (off off' : Int) (forced : Option Str) (r r' : List Item)
    (h : addFile W n path off forced (Stash.init ns neg consts uid) = (.ok r, u))
    (h' : addFile (rewritten W g) n' path off' forced (Stash.init ns neg consts uid') = (.ok r', u'))
    (hr : ∀ x ∈ r, loadedBy x = []) (D : World) :
    (∀ q : Question, q.aboutValues → q.fresh D u' = q.fresh D u) ∧
    (∀ f, AsksCounting f → (getItemsFor D u' f).map said = (getItemsFor D u f).map said) := by
  have hnew : alreadySeen (Stash.init ns neg consts uid) (abspath W.cwd path) = false := by simp [alreadySeen, Stash.init]
  have hnew' : alreadySeen (Stash.init ns neg consts uid') (abspath W.cwd path) = false := by simp [alreadySeen, Stash.init]
  obtain ⟨-, -, q3, q4⟩ := C102_edit W g V ns neg consts hu hc uid uid' (fun _ => True) (fun _ => True) _ _ u u' .nil .nil path t t' hnew hnew' hw hw' ht ht'
    hf hf' ls ls' hl hl' a m m' b hg hg' n n' off off' forced forced r r' h h'
  obtain ⟨A, M, B, e, eA, eM0, eAM, eB, eM⟩ := edited_parts ((C08_chunk_boundaries W n path off forced _ u r _ h hnew hf _ _ hl).2 hg)
  obtain ⟨A', M', B', e', eA', eM0', eAM', eB', eM'⟩ :=
    edited_parts ((C08_chunk_boundaries (rewritten W g) n' path off' forced _ u' r' _ h' hnew' hf' _ _ hl').2 hg')
  have hM : ∀ x ∈ M, x.payload = .comment := by
    intro x hx
    have : x.realRaw ∈ m.map List.flatten := eM ▸ List.mem_map_of_mem hx
    obtain ⟨y, hy, e2⟩ := List.mem_map.1 this
    exact (C11_comments_always_win W n path off forced _ _ r h x (by rw [e]; simp [hx])).2 (e2 ▸ hcom y (by simp [hy]))
  have hM' : ∀ x ∈ M', x.payload = .comment := by
    intro x hx
    have : x.realRaw ∈ m'.map List.flatten := eM' ▸ List.mem_map_of_mem hx
    obtain ⟨y, hy, e2⟩ := List.mem_map.1 this
    exact (C11_comments_always_win (rewritten W g) n' path off' forced _ _ r' h' x (by rw [e']; simp [hx])).2 (e2 ▸ hcom y (by simp [hy]))
  have hA : A.map content = A'.map content := by rw [eA, eA']; exact q3
  have hnewA : SomeNew A ↔ SomeNew A' := by
    have key : ∀ {l k : List Item}, l.map content = k.map content → SomeNew l → SomeNew k := by
      rintro l k e ⟨x, hx, hx'⟩
      have : content x ∈ k.map content := e ▸ List.mem_map_of_mem hx
      obtain ⟨y, hy, he⟩ := List.mem_map.1 this
      exact ⟨y, hy, by rw [← hx']; exact (show (content y).delim = (content x).delim by rw [he])⟩
    exact ⟨key hA, key hA.symm⟩
  have hn : ns = true ∨ (SomeNew (r.take (a.length + m.length)) ↔ SomeNew (r'.take (a.length + m'.length))) := by
    by_cases hns : ns = true
    · exact .inl hns
    · have hns : ns = false := by simpa using hns
      right
      rw [← eAM, ← eAM']
      obtain ⟨k, ⟨ok⟩⟩ := addFile_file h hnew hf
      obtain ⟨k', ⟨ok'⟩⟩ := addFile_file h' hnew' hf'
      rw [e] at ok
      rw [e'] at ok'
      rw [file_comments ok hns hM, file_comments ok' hns hM']
      exact hnewA
  have load : ∀ {l k : List Item}, l.map said = k.map said → (∀ x ∈ l, loadedBy x = []) → ∀ x ∈ k, loadedBy x = [] := by
    intro l k e hl x hx
    have : said x ∈ l.map said := e ▸ List.mem_map_of_mem hx
    obtain ⟨y, hy, he⟩ := List.mem_map.1 this
    have hp : y.payload = x.payload := show (said y).payload = (said x).payload by rw [he]
    have := hl y hy
    unfold loadedBy at this ⊢
    rwa [hp] at this
  have hr' : ∀ x ∈ r', loadedBy x = [] := by
    intro x hx
    rw [e', List.mem_append, List.mem_append] at hx
    rcases hx with (hx | hx) | hx
    · exact load (said_of_content hA) (fun y hy => hr y (by rw [e]; simp [hy])) x hx
    · unfold loadedBy; rw [hM' x hx]
    · refine load (l := B) ?_ (fun y hy => hr y (by rw [e]; simp [hy])) x hx
      rw [eB, eB']
      exact said_of_shifted (q4 hn)
  exact C107_edit_partial W g V ns neg consts hu hc uid uid' u u' path t t' hw hw' ht ht' hf hf' ls ls' hl hl' a m m' b hg hg' n n' off off' forced r r' h h'
    (fun x hx => comment_not_counts (hM x (eM0 ▸ hx))) (fun x hx => comment_not_counts (hM' x (eM0' ▸ hx))) hn hr hr' D

end

section
attribute [local instance] Sample.asciiUni

theorem Sample.singleGroup (t : Str) (rest : List Str) (h : OneLine t) : IsGroup [t ++ c!"\n"] rest := by
  refine .inr (.inr (.inr (.inr ⟨_, rfl, ?_, h.noHeader, h.noComment, h.noDef⟩)))
  rintro ⟨a, ws, e, -⟩
  have : '\\' ∈ t ++ c!"\n" := by rw [e]; simp
  simp at this
  exact (h.chars _ this).2.2 rfl

theorem Sample.commentGroup (x : Str) (k : List Str) (rest : List Str) (h1 : '\\' ∉ x) (h2 : '(' ∉ x) (h3 : ∀ l ∈ x :: k, CommentLine l)
    (h4 : ∀ l ∈ rest.head?, ¬ CommentLine l) : IsGroup (x :: k) rest := by
  refine .inr (.inr (.inl ⟨x, k, rfl, ?_, ?_, h3 x (by simp), fun l hl => h3 l (by simp [hl]), h4⟩))
  · rintro ⟨a, ws, e, -⟩; exact h1 (by rw [e]; simp)
  · rintro ⟨a, w1, w2, b, e, -⟩; exact h2 (by rw [e]; simp)

/-- a recipe -/
def Sample.plainText : Str := c!"A = \"1\"\nB = \"${A}\"\n"
/-- the recipe with a comment -/
def Sample.commentedText : Str := c!"A = \"1\"\n# first\n# second\nB = \"${A}\"\n"
/-- the disk -/
def Sample.plainDisk : World := Sample.world [(c!"/w/r.bb", Sample.plainText)]
/-- the disk with the comment -/
def Sample.commentedFile (p : Str) : FileRes := if p = c!"/w/r.bb" then .text Sample.commentedText else Sample.plainDisk.file p

theorem Sample.commentedGroups (x y : Str) (c : Str) (k : List Str) (o1 : OneLine x) (o2 : OneLine y) (h1 : '\\' ∉ c) (h2 : '(' ∉ c)
    (h3 : ∀ l ∈ c :: k, CommentLine l) :
    Groups ((x ++ c!"\n") :: c :: k ++ [y ++ c!"\n"]) ([[x ++ c!"\n"]] ++ [c :: k] ++ [[y ++ c!"\n"]]) := by
  refine .cons (g := [x ++ c!"\n"]) (Sample.singleGroup _ _ o1) (.cons (g := c :: k) (Sample.commentGroup _ _ _ h1 h2 h3 ?_)
    (.cons (g := [y ++ c!"\n"]) (Sample.singleGroup _ _ o2) .nil))
  simp only [List.head?_cons, Option.mem_def, Option.some.injEq]
  rintro _ rfl
  exact o2.noComment

/-- a comment is inserted: all hypotheses of `C107_comments_partial` hold, and no answer changes -/
example : ∀ r r' u u', addFile Sample.plainDisk 5 c!"/w/r.bb" 0 none (Stash.init false false Sample.constants 0) = (.ok r, u) →
    addFile (rewritten Sample.plainDisk Sample.commentedFile) 5 c!"/w/r.bb" 0 none (Stash.init false false Sample.constants 9) = (.ok r', u') →
    ∀ (D : World) (q : Question), q.aboutValues → q.fresh D u' = q.fresh D u := by
  intro r r' u u' h h' D
  have o1 : OneLine c!"A = \"1\"" := oneLine_of_chars (by decide +kernel) (by decide +kernel) (by decide +kernel)
  have o2 : OneLine c!"B = \"${A}\"" := oneLine_of_chars (by decide +kernel) (by decide +kernel) (by decide +kernel)
  refine (C107_comments_partial Sample.plainDisk Sample.commentedFile (fun _ => False) false false Sample.constants Sample.usableConstants
    (setsWithin_none _) 0 9 u u' c!"/w/r.bb" Sample.plainText Sample.commentedText
    (fileWithin_plain (Sample.plain_of (by decide +kernel)))
    (fileWithin_plain (Sample.plain_of (by decide +kernel))) (noneAssigned_none _) (noneAssigned_none _)
    (by decide +kernel) (by decide +kernel) _ _ (readlines_isLines _) (readlines_isLines _)
    [[c!"A = \"1\"\n"]] [] [[c!"# first\n", c!"# second\n"]] [[c!"B = \"${A}\"\n"]]
    (.cons (Sample.singleGroup _ _ o1) (.cons (Sample.singleGroup _ _ o2) .nil))
    ((show readlines (univNewlines Sample.commentedText) = [c!"A = \"1\"\n", c!"# first\n", c!"# second\n", c!"B = \"${A}\"\n"] by decide +kernel) ▸
      Sample.commentedGroups c!"A = \"1\"" c!"B = \"${A}\"" c!"# first\n" [c!"# second\n"] o1 o2 (by decide) (by decide) ?_)
    ?_ 5 5 0 0 none r r' h h' ?_ D).1
  · intro l hl
    simp only [List.mem_cons, List.not_mem_nil, or_false] at hl
    rcases hl with rfl | rfl <;> exact ⟨_, rfl⟩
  · simp only [List.nil_append, List.mem_singleton]
    rintro _ rfl
    exact ⟨[], _, rfl, by simp⟩
  · have h0 : (addFile Sample.plainDisk 5 c!"/w/r.bb" 0 none (Stash.init false false Sample.constants 0)).1.toOption.map (·.all (fun x => (loadedBy x).isEmpty)) =
        some true := by decide +kernel
    rw [h] at h0
    have := Option.some.inj h0
    intro x hx
    simpa using List.all_eq_true.1 this x hx

/-- the recipe with a blank line and a task -/
def Sample.spacedText : Str := c!"A = \"1\"\n\naddtask x after do_y\nB = \"${A}\"\n"
/-- the disk with them -/
def Sample.spacedFile (p : Str) : FileRes := if p = c!"/w/r.bb" then .text Sample.spacedText else Sample.plainDisk.file p

/-- a blank line and a task are inserted: all hypotheses of `C107_edit_partial` hold, and no answer changes -/
example : ∀ r r' u u', addFile Sample.plainDisk 5 c!"/w/r.bb" 0 none (Stash.init false false Sample.constants 0) = (.ok r, u) →
    addFile (rewritten Sample.plainDisk Sample.spacedFile) 5 c!"/w/r.bb" 0 none (Stash.init false false Sample.constants 9) = (.ok r', u') →
    ∀ (D : World) (q : Question), q.aboutValues → q.fresh D u' = q.fresh D u := by
  intro r r' u u' h h' D
  have o1 : OneLine c!"A = \"1\"" := oneLine_of_chars (by decide +kernel) (by decide +kernel) (by decide +kernel)
  have o2 : OneLine c!"B = \"${A}\"" := oneLine_of_chars (by decide +kernel) (by decide +kernel) (by decide +kernel)
  have o3 : OneLine c!"" := oneLine_of_chars (by decide +kernel) (by decide +kernel) (by decide +kernel)
  have o4 : OneLine c!"addtask x after do_y" := oneLine_of_chars (by decide +kernel) (by decide +kernel) (by decide +kernel)
  have facts : (∀ x ∈ r, loadedBy x = []) ∧ ¬ SomeNew (r.take 1) := by
    have h0 : (addFile Sample.plainDisk 5 c!"/w/r.bb" 0 none (Stash.init false false Sample.constants 0)).1.toOption.map
        (fun r => r.all (fun x => (loadedBy x).isEmpty) && (r.take 1).all (fun x => x.delim != ':')) = some true := by decide +kernel
    rw [h] at h0
    have := Option.some.inj h0
    simp only [Bool.and_eq_true, List.all_eq_true, List.isEmpty_iff, bne_iff_ne] at this
    exact ⟨this.1, fun ⟨x, hx, hx'⟩ => this.2 x hx hx'⟩
  have facts' : (∀ x ∈ r', loadedBy x = []) ∧ ¬ SomeNew (r'.take 3) ∧ ∀ x ∈ (r'.drop 1).take 2, ¬ Counts x := by
    have h0 : (addFile (rewritten Sample.plainDisk Sample.spacedFile) 5 c!"/w/r.bb" 0 none (Stash.init false false Sample.constants 9)).1.toOption.map
        (fun r => (r.all (fun x => (loadedBy x).isEmpty) && (r.take 3).all (fun x => x.delim != ':')) &&
          ((r.drop 1).take 2).all (fun x => !decide (Counts x))) = some true := by decide +kernel
    rw [h'] at h0
    have := Option.some.inj h0
    simp only [Bool.and_eq_true, List.all_eq_true, List.isEmpty_iff, bne_iff_ne, Bool.not_eq_true', decide_eq_false_iff_not] at this
    exact ⟨this.1.1, fun ⟨x, hx, hx'⟩ => this.1.2 x hx hx', this.2⟩
  exact (C107_edit_partial Sample.plainDisk Sample.spacedFile (fun _ => False) false false Sample.constants Sample.usableConstants
    (setsWithin_none _) 0 9 u u' c!"/w/r.bb" Sample.plainText Sample.spacedText
    (fileWithin_plain (Sample.plain_of (by decide +kernel)))
    (fileWithin_plain (Sample.plain_of (by decide +kernel))) (noneAssigned_none _) (noneAssigned_none _)
    (by decide +kernel) (by decide +kernel) _ _ (readlines_isLines _) (readlines_isLines _)
    [[c!"A = \"1\"\n"]] [] [[c!"\n"], [c!"addtask x after do_y\n"]] [[c!"B = \"${A}\"\n"]]
    (.cons (Sample.singleGroup _ _ o1) (.cons (Sample.singleGroup _ _ o2) .nil))
    (.cons (Sample.singleGroup _ _ o1) (.cons (Sample.singleGroup _ _ o3) (.cons (Sample.singleGroup _ _ o4) (.cons (Sample.singleGroup _ _ o2) .nil))))
    5 5 0 0 none r r' h h' (by simp) facts'.2.2 (.inr (iff_of_false facts.2 facts'.2.1)) facts.1 facts'.1 D).1

/-- `C107_order_only` applies when all `Line`s are moved by the same amount -/
example (W : World) (s : Stash) (d : Int) (hs : s.items.Pairwise (fun a b => a.line < b.line)) (q : Question) (hq : q.aboutValues) :
    q.fresh W { s with items := s.items.map (fun x => { x with line := x.line + d }) } = q.fresh W s := by
  refine (C107_order_only s { s with items := s.items.map (fun x => { x with line := x.line + d }) }
    (s.items.filter (fun x => decide (Counts x))) ((s.items.map (fun x => { x with line := x.line + d })).filter (fun x => decide (Counts x)))
    ⟨hs.filter _, fun x => by simp⟩ ⟨List.Pairwise.filter _ (List.pairwise_map.2 (hs.imp fun h => by simpa using h)), fun x => by simp [List.mem_filter]⟩ ?_
    rfl rfl W).1 q hq
  refine said_filter ?_
  rw [List.map_map]
  rfl

/-- such a stash: the recipe above -/
example : (addFile Sample.plainDisk 5 c!"/w/r.bb" 0 none (Stash.init false false Sample.constants 0)).2.items.Pairwise (fun a b => a.line < b.line) := by
  decide +kernel

/-- both calls succeed, and `B` is `1` -/
example : (addFile Sample.plainDisk 5 c!"/w/r.bb" 0 none (Stash.init false false Sample.constants 0)).1.toOption.map (·.length) = some 2 ∧
    (addFile (rewritten Sample.plainDisk Sample.commentedFile) 5 c!"/w/r.bb" 0 none (Stash.init false false Sample.constants 9)).1.toOption.map
      (·.length) = some 3 ∧
    (expandTermS Sample.plainDisk (addFile Sample.plainDisk 5 c!"/w/r.bb" 0 none (Stash.init false false Sample.constants 0)).2 c!"/w/r.bb" []
      c!"${B}").toOption = some c!"1" := by decide +kernel

/-- a recipe with two includes -/
def Sample.twoText : Str := c!"require a.inc\nrequire b.inc\n"
/-- four lines of comments between them -/
def Sample.twoCommented : Str := c!"require a.inc\n# 1\n# 2\n# 3\n# 4\nrequire b.inc\n"
/-- both includes assign `V` -/
def Sample.twoDisk : World := Sample.world [(c!"/w/r.bb", Sample.twoText), (c!"/w/a.inc", c!"\n\nV = \"a\"\n"), (c!"/w/b.inc", c!"V = \"b\"\n")]
/-- the disk with the comment -/
def Sample.twoFile (p : Str) : FileRes := if p = c!"/w/r.bb" then .text Sample.twoCommented else Sample.twoDisk.file p

/-- **C107** is false of the code for a file with two includes: a comment between them changes a value. (The `Line`s of the second
include do not account for the lines of the first, C43; so they interleave, and the comment changes which assignment comes first.) -/
theorem C107_includes_negation :
    Groups (readlines Sample.twoText) ([[c!"require a.inc\n"]] ++ [] ++ [[c!"require b.inc\n"]]) ∧
    Groups (readlines Sample.twoCommented)
      ([[c!"require a.inc\n"]] ++ [[c!"# 1\n", c!"# 2\n", c!"# 3\n", c!"# 4\n"]] ++ [[c!"require b.inc\n"]]) ∧
    ∃ r r' u u', addFile Sample.twoDisk 5 c!"/w/r.bb" 0 none (Stash.init false false Sample.constants 0) = (.ok r, u) ∧
      addFile (rewritten Sample.twoDisk Sample.twoFile) 5 c!"/w/r.bb" 0 none (Stash.init false false Sample.constants 0) = (.ok r', u') ∧
      (Question.expandTerm c!"/w/r.bb" c!"${V}" []).fresh Sample.twoDisk u = .ok (.text c!"b") ∧
      (Question.expandTerm c!"/w/r.bb" c!"${V}" []).fresh Sample.twoDisk u' = .ok (.text c!"a") := by
  have o1 : OneLine c!"require a.inc" := oneLine_of_chars (by decide +kernel) (by decide +kernel) (by decide +kernel)
  have o2 : OneLine c!"require b.inc" := oneLine_of_chars (by decide +kernel) (by decide +kernel) (by decide +kernel)
  refine ⟨.cons (Sample.singleGroup _ _ o1) (.cons (Sample.singleGroup _ _ o2) .nil),
    (show readlines Sample.twoCommented = [c!"require a.inc\n", c!"# 1\n", c!"# 2\n", c!"# 3\n", c!"# 4\n", c!"require b.inc\n"] by decide +kernel) ▸
      Sample.commentedGroups c!"require a.inc" c!"require b.inc" c!"# 1\n" [c!"# 2\n", c!"# 3\n", c!"# 4\n"] o1 o2 (by decide) (by decide) ?_, ?_⟩
  · intro l hl
    simp only [List.mem_cons, List.not_mem_nil, or_false] at hl
    rcases hl with rfl | rfl | rfl | rfl <;> exact ⟨_, rfl⟩
  · have h1 : (addFile Sample.twoDisk 5 c!"/w/r.bb" 0 none (Stash.init false false Sample.constants 0)).1.toOption.isSome = true := by decide +kernel
    have h2 : (addFile (rewritten Sample.twoDisk Sample.twoFile) 5 c!"/w/r.bb" 0 none (Stash.init false false Sample.constants 0)).1.toOption.isSome = true := by
      decide +kernel
    have h3 : (Question.expandTerm c!"/w/r.bb" c!"${V}" []).fresh Sample.twoDisk
        (addFile Sample.twoDisk 5 c!"/w/r.bb" 0 none (Stash.init false false Sample.constants 0)).2 = .ok (.text c!"b") := by decide +kernel
    have h4 : (Question.expandTerm c!"/w/r.bb" c!"${V}" []).fresh Sample.twoDisk
        (addFile (rewritten Sample.twoDisk Sample.twoFile) 5 c!"/w/r.bb" 0 none (Stash.init false false Sample.constants 0)).2 = .ok (.text c!"a") := by
      decide +kernel
    generalize addFile Sample.twoDisk 5 c!"/w/r.bb" 0 none (Stash.init false false Sample.constants 0) = x at h1 h3 ⊢
    generalize addFile (rewritten Sample.twoDisk Sample.twoFile) 5 c!"/w/r.bb" 0 none (Stash.init false false Sample.constants 0) = y at h2 h4 ⊢
    obtain ⟨x1, u⟩ := x
    obtain ⟨y1, u'⟩ := y
    cases x1 with
    | error e => cases h1
    | ok r =>
      cases y1 with
      | error e => cases h2
      | ok r' => exact ⟨r, r', u, u', rfl, rfl, h3, h4⟩

end
end Oelint

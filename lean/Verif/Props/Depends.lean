import Verif.Lemmas.Depends
import Verif.Props.Layout
/-!
# C110: only what a text refers to matters

What `ExpandTerm` makes of a text depends on the statements about the variables that the text refers to, directly or through what these
variables stand for, and on nothing else that is in the stash.
-/
set_option linter.unusedSectionVars false
namespace Oelint
open Spec

section
variable [Uni]

/-- **C110** `N` are names such that the text, and what each name in `N` stands for, refers to names in `N` only. If `GetItemsFor` lists the same
statements for each of them in two stashes with the same base set, then `ExpandTerm` does the same with both, exceptions included; definitions may be
cyclic, and may call `getVar` and `read_file`. -/
theorem C110_only_referred (W : World) (s s' : Stash) (file : Str) (N : Str → Prop) (hb : setsBase s'.consts = setsBase s.consts)
    (hsame : ∀ n, N n → n ≠ [] → (getItemsFor W s' (varFilter file n)).map said = (getItemsFor W s (varFilter file n)).map said)
    (hcl : ClosedNames W s file N) (spare : List Str) (t : Str) (ht : DependsWithin N t) :
    expandTermS W s' file spare t = expandTermS W s file spare t := by
  refine SameSources.term ⟨hb, fun b n q hn hne => source_same (forall₂_of_map_eq (hsame n hn hne).symm), ?_⟩ rfl spare t ht
  exact fun b n q t hb hn hne h => hcl n t hn (defined_of_source hb hne h)

/-- **C110** (by `Line`). Two stashes hold the same statements about the variables in `N`, in the same order of `Line`s, whatever
the `Line`s are and whatever else they hold; links and settings are the same. -/
theorem C110_whatever_else (W : World) (s s' : Stash) (l l' : List Item) (file : Str) (N : Str → Prop) (hl : LinedNames N s l) (hl' : LinedNames N s' l')
    (hsame : l.map said = l'.map said) (hm : s'.map = s.map) (hc : s'.consts = s.consts)
    (hcl : ClosedNames W s file N) (spare : List Str) (t : Str) (ht : DependsWithin N t) :
    expandTermS W s' file spare t = expandTermS W s file spare t := by
  refine SameSources.term ⟨by rw [hc], fun b n q hn hne => source_same ?_, fun b n q t hb hn hne h => hcl n t hn (defined_of_source hb hne h)⟩ rfl spare t ht
  rw [linedNames_get hl W hn hne, linedNames_get hl' W hn hne]
  exact forall₂_filter (fun x y hxy => keeps_said hm _ hxy) (forall₂_of_map_eq hsame)

theorem aboutName_said {N : Str → Prop} {x y : Item} (e : said x = said y) : AboutName N x ↔ AboutName N y := by
  unfold AboutName; rw [show x.payload = y.payload from (show (said x).payload = (said y).payload by rw [e])]

open Classical in
/-- **C110** (an edited file). Two versions of a file differ in the statements `m` and `m'` only, in the same place, and none of these is about a
variable in `N`. Each version is read into a fresh stash with the same settings, and loads no other file. Then a text that depends on `N` only is
expanded to the same, unless the edit changes whether the new override syntax is in use by then. -/
theorem C110_edit (W : World) (g : Str → FileRes) (V : Str → Prop) (ns neg : Bool) (consts : J) (hu : UsableConstants consts)
    (hc : SetsWithin consts V) (uid uid' : Nat) (u u' : Stash) (path t t' : Str)
    (hw : FileWithin W V (abspath W.cwd path)) (hw' : FileWithin (rewritten W g) V (abspath W.cwd path))
    (ht : NoneAssigned V u) (ht' : NoneAssigned V u')
    (hf : W.file (abspath W.cwd path) = .text t) (hf' : g (abspath W.cwd path) = .text t') (ls ls' : List Str)
    (hl : IsLines (univNewlines t) ls) (hl' : IsLines (univNewlines t') ls') (a m m' b : List (List Str))
    (hg : Groups ls (a ++ m ++ b)) (hg' : Groups ls' (a ++ m' ++ b))
    (n n' : Nat) (off off' : Int) (forced : Option Str) (r r' : List Item)
    (h : addFile W n path off forced (Stash.init ns neg consts uid) = (.ok r, u))
    (h' : addFile (rewritten W g) n' path off' forced (Stash.init ns neg consts uid') = (.ok r', u'))
    (N : Str → Prop)
    (hM : ∀ x ∈ (r.drop a.length).take m.length, ¬ AboutName N x) (hM' : ∀ x ∈ (r'.drop a.length).take m'.length, ¬ AboutName N x)
    (hn : ns = true ∨ (SomeNew (r.take (a.length + m.length)) ↔ SomeNew (r'.take (a.length + m'.length))))
    (hr : ∀ x ∈ r, loadedBy x = []) (hr' : ∀ x ∈ r', loadedBy x = [])
    (D : World) (file : Str) (hcl : ClosedNames D u file N) (spare : List Str) (text : Str) (hx : DependsWithin N text) :
    expandTermS D u' file spare text = expandTermS D u file spare text := by
  have hnew : alreadySeen (Stash.init ns neg consts uid) (abspath W.cwd path) = false := by simp [alreadySeen, Stash.init]
  have hnew' : alreadySeen (Stash.init ns neg consts uid') (abspath W.cwd path) = false := by simp [alreadySeen, Stash.init]
  obtain ⟨-, -, q3, q4⟩ := C102_edit W g V ns neg consts hu hc uid uid' (fun _ => True) (fun _ => True) _ _ u u' .nil .nil path t t' hnew hnew' hw hw' ht ht'
    hf hf' ls ls' hl hl' a m m' b hg hg' n n' off off' forced forced r r' h h'
  have split : ∀ (r : List Item) (i j : Nat), r = r.take i ++ (r.drop i).take j ++ r.drop (i + j) := fun r i j => by
    rw [List.append_assoc, ← List.drop_drop, List.take_append_drop, List.take_append_drop]
  have none : ∀ {l : List Item}, (∀ x ∈ l, ¬ AboutName N x) → l.filter (fun x => decide (AboutName N x)) = [] := fun h => by
    rw [List.filter_eq_nil_iff]; intro x hx; simp [h x hx]
  have sub : ∀ {l l' : List Item}, l.map said = l'.map said →
      List.Forall₂ Same (l.filter (fun x => decide (AboutName N x))) (l'.filter (fun x => decide (AboutName N x))) := fun h =>
    forall₂_filter (fun x y e => decide_eq_decide.2 (aboutName_said e)) (forall₂_of_map_eq h)
  have hsame : List.Forall₂ Same (r.filter (fun x => decide (AboutName N x))) (r'.filter (fun x => decide (AboutName N x))) := by
    rw [split r a.length m.length, split r' a.length m'.length, List.filter_append, List.filter_append, List.filter_append, List.filter_append,
      none hM, none hM', List.append_nil, List.append_nil]
    exact List.rel_append (sub (said_of_content q3)) (sub (said_of_shifted (q4 hn)))
  obtain ⟨k1, k2, k3⟩ := addFile_idle (W := W) (W' := rewritten W g) (s := Stash.init ns neg consts uid) (s' := Stash.init ns neg consts uid')
    rfl rfl rfl rfl hnew hnew' h h' hr hr'
  have hlin := (C02_lines W n path off forced _ _ r _ h hnew hf).2.1
  have hlin' := (C02_lines (rewritten W g) n' path off' forced _ _ r' _ h' hnew' hf').2.1
  have c1 : ConstsOf consts u := by
    have := addFile_constsOf_any (W := W) (db := consts) (s := Stash.init ns neg consts uid) ⟨hu, otherNames_refl _⟩ n path off forced
    rwa [h] at this
  have c2 : ConstsOf consts u' := by
    have := addFile_constsOf_any (W := rewritten W g) (db := consts) (s := Stash.init ns neg consts uid') ⟨hu, otherNames_refl _⟩ n' path off' forced
    rwa [h'] at this
  have names := constsOf_names c1 c2
  have L : LinedNames N u (r.filter (fun x => decide (AboutName N x))) :=
    ⟨hlin.filter _, fun x => by rw [List.mem_filter, k1, decide_eq_true_iff]⟩
  have L' : LinedNames N u' (r'.filter (fun x => decide (AboutName N x))) :=
    ⟨hlin'.filter _, fun x => by rw [List.mem_filter, k2, decide_eq_true_iff]⟩
  have hbase : setsBase u'.consts = setsBase u.consts := (twin_names W).sets (s' := { u with consts := u'.consts }) names
  refine SameSources.term ⟨hbase, fun b n q hn hne => source_same ?_,
    fun b n q t hb hn hne h => hcl n t hn (defined_of_source hb hne h)⟩ rfl spare text hx
  rw [linedNames_get L D hn hne, linedNames_get L' D hn hne]
  exact forall₂_filter (fun x y hxy => keeps_said k3 _ hxy) hsame

/-- the names after `${` -/
def refNames : Str → List Str
  | '$' :: '{' :: c :: rest => (c :: rest.takeWhile (· ≠ '}')) :: refNames ('{' :: c :: rest)
  | _ :: r => refNames r
  | [] => []

theorem refNames_drop (a r : Str) : ∀ n ∈ refNames r, n ∈ refNames (a ++ r) := by
  induction a with
  | nil => exact fun n h => h
  | cons c a ih =>
    intro n hn
    have := ih n hn
    rw [List.cons_append]
    generalize a ++ r = k at this
    unfold refNames
    split
    · rename_i e; injection e with e1 e2; subst e2; simp [this]
    · rename_i e; injection e with e1 e2; subst e2; exact this
    · rename_i e; cases e

theorem refers_refNames {t n : Str} (h : Refers t n) : n ∈ refNames t := by
  obtain ⟨⟨a, r, rfl⟩, h1, h2, h3⟩ := h
  rw [List.append_assoc]
  refine refNames_drop a _ n ?_
  obtain ⟨c, n, rfl⟩ := List.exists_cons_of_ne_nil h1
  have e : refText (c :: n) ++ r = '$' :: '{' :: c :: (n ++ '}' :: r) := by simp [refText]
  rw [e]
  have : (n ++ '}' :: r).takeWhile (· ≠ '}') = n := by
    rw [List.takeWhile_append_of_pos (by intro x hx; simp only [List.tail_cons] at h3; simp; rintro rfl; exact h3 hx)]
    simp
  rw [refNames, this]
  exact List.mem_cons_self

theorem dependsWithin_names {t : Str} {names : List Str} (h : ∀ n ∈ refNames t, n ∈ names) (hg : ¬ c!"getVar(" <:+: t) :
    DependsWithin (· ∈ names) t := by
  refine ⟨fun n hn => h n (refers_refNames hn), fun n hn => absurd ?_ hg⟩
  obtain ⟨q, q', args, -, h2, -⟩ := hn
  exact (List.prefix_append _ _).isInfix.trans h2

theorem closedNames_of {W : World} {s : Stash} {file : Str} {names : List Str}
    (h : ∀ x ∈ s.items, ∀ v, x.payload = .variable v → v.varName ∈ names →
      (∀ n ∈ refNames (assignmentText x v), n ∈ names) ∧ ¬ c!"getVar(" <:+: assignmentText x v)
    (hb : setsBase s.consts = .ok J.empty) : ClosedNames W s file (· ∈ names) := by
  intro n t hn hd
  cases hd with
  | @assigned x v hf hp =>
    obtain ⟨_, _, _, ⟨hx, _, v', hp', hv', _⟩, _⟩ := hf
    rw [hp] at hp'
    cases hp'
    obtain ⟨h1, h2⟩ := h x hx v hp (hv'.symm ▸ hn)
    exact dependsWithin_names h1 h2
  | base _ h2 h3 => rw [hb] at h2; cases h2; cases h3

end

/-! ## examples -/
section
attribute [local instance] Sample.asciiUni

/-- `A = "x${B}y"`, `B = "1${U}"`, and other values for the other variables than in `Sample.defs` -/
def Sample.defs2 : Stash :=
  { Sample.stash with items := [Sample.assign 1 c!"Z" c!"new", Sample.assign 2 c!"A" c!"x${B}y", Sample.assign 3 c!"C" c!"3",
      Sample.assign 4 c!"B" c!"1${U}", Sample.assign 5 c!"B" c!"2"] }

/-- the check of `closedNames_of` -/
def Sample.closedCheck (names : List Str) (l : List Item) : Bool :=
  l.all fun x => match x.payload with
    | .variable v => !names.contains v.varName ||
        ((refNames (assignmentText x v)).all (fun n => names.contains n) && !decide (c!"getVar(" <:+: assignmentText x v))
    | _ => true

theorem Sample.closed_of {names : List Str} {l : List Item} (h : Sample.closedCheck names l = true) :
    ∀ x ∈ l, ∀ v, x.payload = .variable v → v.varName ∈ names →
      (∀ n ∈ refNames (assignmentText x v), n ∈ names) ∧ ¬ c!"getVar(" <:+: assignmentText x v := by
  intro x hx v hv hn
  have := List.all_eq_true.1 h x hx
  rw [hv] at this
  simp only [Bool.or_eq_true, Bool.and_eq_true, Bool.not_eq_true', List.all_eq_true, List.contains_iff_mem, decide_eq_false_iff_not] at this
  rcases this with h | h
  · rw [← Bool.not_eq_true, List.contains_iff_mem] at h; exact absurd hn h
  · exact h

/-- the item is about one of the names -/
def Sample.about (names : List Str) (x : Item) : Bool := match x.payload with
  | .variable v => names.contains v.varName
  | _ => false

theorem Sample.about_iff (names : List Str) (x : Item) : Sample.about names x = true ↔ AboutName (· ∈ names) x := by
  unfold AboutName Sample.about
  cases x.payload <;> simp

theorem Sample.linedNames {names : List Str} {s : Stash} (h : s.items.Pairwise (fun a b => a.line < b.line)) :
    LinedNames (· ∈ names) s (s.items.filter (Sample.about names)) :=
  ⟨h.filter _, fun x => by rw [List.mem_filter, Sample.about_iff]⟩

/-- C110: the hypotheses are met, with other statements on other lines -/
example (W : World) (spare : List Str) : expandTermS W Sample.defs2 c!"/a/b_1.bb" spare c!"<${A}>" = expandTermS W Sample.defs c!"/a/b_1.bb" spare c!"<${A}>" :=
  C110_whatever_else W Sample.defs Sample.defs2 _ _ c!"/a/b_1.bb" (· ∈ [c!"A", c!"B", c!"U"])
    (Sample.linedNames (by decide +kernel)) (Sample.linedNames (by decide +kernel)) (by decide +kernel) rfl rfl
    (closedNames_of (Sample.closed_of (by decide +kernel)) rfl) spare _ (dependsWithin_names (by decide +kernel) (by decide +kernel))

/-- what it is; a text that refers to `C` is expanded to something else -/
example : expandTermS (Sample.world []) Sample.defs c!"/a/b_1.bb" [] c!"<${A}>" = .ok c!"<x1${U}y>" ∧
    expandTermS (Sample.world []) Sample.defs c!"/a/b_1.bb" [] c!"<${C}>" = .ok c!"<->" ∧
    expandTermS (Sample.world []) Sample.defs2 c!"/a/b_1.bb" [] c!"<${C}>" = .ok c!"<3>" := by decide +kernel

/-- C110: the same, by `GetItemsFor` -/
example (spare : List Str) : expandTermS (Sample.world []) Sample.defs2 c!"/a/b_1.bb" spare c!"<${A}>" =
    expandTermS (Sample.world []) Sample.defs c!"/a/b_1.bb" spare c!"<${A}>" :=
  C110_only_referred (Sample.world []) Sample.defs Sample.defs2 c!"/a/b_1.bb" (· ∈ [c!"A", c!"B", c!"U"]) rfl
    (by intro n hn _; simp only [List.mem_cons, List.not_mem_nil, or_false] at hn; rcases hn with rfl | rfl | rfl <;> decide +kernel)
    (closedNames_of (Sample.closed_of (by decide +kernel)) rfl) spare _ (dependsWithin_names (by decide +kernel) (by decide +kernel))

/-- another variable is assigned and a task added in the middle of the recipe -/
def Sample.longerText : Str := c!"A = \"1\"\nZ = \"${A}${B}\"\naddtask x after do_y\nB = \"${A}\"\n"
/-- the disk with the longer recipe -/
def Sample.longerFile (p : Str) : FileRes := if p = c!"/w/r.bb" then .text Sample.longerText else Sample.plainDisk.file p

/-- an assignment of another variable is inserted: all hypotheses of `C110_edit` hold -/
example : ∀ r r' u u', addFile Sample.plainDisk 5 c!"/w/r.bb" 0 none (Stash.init false false Sample.constants 0) = (.ok r, u) →
    addFile (rewritten Sample.plainDisk Sample.longerFile) 5 c!"/w/r.bb" 0 none (Stash.init false false Sample.constants 9) = (.ok r', u') →
    ∀ (D : World), expandTermS D u' c!"/w/r.bb" [] c!"${B}" = expandTermS D u c!"/w/r.bb" [] c!"${B}" := by
  intro r r' u u' h h' D
  have o1 : OneLine c!"A = \"1\"" := oneLine_of_chars (by decide +kernel) (by decide +kernel) (by decide +kernel)
  have o2 : OneLine c!"B = \"${A}\"" := oneLine_of_chars (by decide +kernel) (by decide +kernel) (by decide +kernel)
  have o3 : OneLine c!"Z = \"${A}${B}\"" := oneLine_of_chars (by decide +kernel) (by decide +kernel) (by decide +kernel)
  have o4 : OneLine c!"addtask x after do_y" := oneLine_of_chars (by decide +kernel) (by decide +kernel) (by decide +kernel)
  have facts : (∀ x ∈ r, loadedBy x = []) ∧ ¬ SomeNew (r.take 1) := by
    have h0 : (addFile Sample.plainDisk 5 c!"/w/r.bb" 0 none (Stash.init false false Sample.constants 0)).1.toOption.map
        (fun r => r.all (fun x => (loadedBy x).isEmpty) && (r.take 1).all (fun x => x.delim != ':')) = some true := by decide +kernel
    rw [h] at h0
    have := Option.some.inj h0
    simp only [Bool.and_eq_true, List.all_eq_true, List.isEmpty_iff, bne_iff_ne] at this
    exact ⟨this.1, fun ⟨x, hx, hx'⟩ => this.2 x hx hx'⟩
  have facts' : (∀ x ∈ r', loadedBy x = []) ∧ ¬ SomeNew (r'.take 3) ∧ ∀ x ∈ (r'.drop 1).take 2, ¬ AboutName (· ∈ [c!"A", c!"B"]) x := by
    have h0 : (addFile (rewritten Sample.plainDisk Sample.longerFile) 5 c!"/w/r.bb" 0 none (Stash.init false false Sample.constants 9)).1.toOption.map
        (fun r => (r.all (fun x => (loadedBy x).isEmpty) && (r.take 3).all (fun x => x.delim != ':')) &&
          ((r.drop 1).take 2).all (fun x => !Sample.about [c!"A", c!"B"] x)) = some true := by decide +kernel
    rw [h'] at h0
    have := Option.some.inj h0
    simp only [Bool.and_eq_true, List.all_eq_true, List.isEmpty_iff, bne_iff_ne, Bool.not_eq_true'] at this
    exact ⟨this.1.1, fun ⟨x, hx, hx'⟩ => this.1.2 x hx hx', fun x hx hA => by have := this.2 x hx; rw [(Sample.about_iff _ x).2 hA] at this; cases this⟩
  have hcl : ClosedNames D u c!"/w/r.bb" (· ∈ [c!"A", c!"B"]) := by
    refine closedNames_of (Sample.closed_of ?_) ?_
    · have : Sample.closedCheck [c!"A", c!"B"] (addFile Sample.plainDisk 5 c!"/w/r.bb" 0 none (Stash.init false false Sample.constants 0)).2.items = true := by
        decide +kernel
      rwa [h] at this
    · have : (match setsBase (addFile Sample.plainDisk 5 c!"/w/r.bb" 0 none (Stash.init false false Sample.constants 0)).2.consts with
          | .ok (.dict .nil) => true | _ => false) = true := by decide +kernel
      rw [h] at this
      cases e : setsBase u.consts with
      | error _ => rw [e] at this; cases this
      | ok b => rw [e] at this; cases b <;> first | cases this | (rename_i d; cases d <;> first | rfl | cases this)
  exact C110_edit Sample.plainDisk Sample.longerFile (fun _ => False) false false Sample.constants Sample.usableConstants
    (setsWithin_none _) 0 9 u u' c!"/w/r.bb" Sample.plainText Sample.longerText
    (fileWithin_plain (Sample.plain_of (by decide +kernel)))
    (fileWithin_plain (Sample.plain_of (by decide +kernel))) (noneAssigned_none _) (noneAssigned_none _)
    (by decide +kernel) (by decide +kernel) _ _ (readlines_isLines _) (readlines_isLines _)
    [[c!"A = \"1\"\n"]] [] [[c!"Z = \"${A}${B}\"\n"], [c!"addtask x after do_y\n"]] [[c!"B = \"${A}\"\n"]]
    (.cons (Sample.singleGroup _ _ o1) (.cons (Sample.singleGroup _ _ o2) .nil))
    (.cons (Sample.singleGroup _ _ o1) (.cons (Sample.singleGroup _ _ o3) (.cons (Sample.singleGroup _ _ o4) (.cons (Sample.singleGroup _ _ o2) .nil))))
    5 5 0 0 none r r' h h' (· ∈ [c!"A", c!"B"]) (by simp) facts'.2.2 (.inr (iff_of_false facts.2 facts'.2.1)) facts.1 facts'.1 D _ hcl [] _
    (dependsWithin_names (by decide +kernel) (by decide +kernel))

end
end Oelint

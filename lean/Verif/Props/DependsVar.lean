import Verif.Props.Depends
import Verif.Props.ExpandVarExact
/-!
# C111: the value of a variable depends on the statements about it

What `ExpandVar` gives for a variable depends on the statements about this variable and on what its text refers to (C110).
-/
set_option linter.unusedSectionVars false
namespace Oelint
open Spec

section
variable [Uni]

/-- the item assigns, extends, reduces or unsets the variable `n` (the name with its overrides) -/
def Spec.Concerns (n : Str) (x : Item) : Prop :=
  match x.payload with
  | .unset m flag => m = n ∧ flag = []
  | .variable v => varNameCompleteNoModifiers x.delim v = n
  | _ => False

instance (n : Str) (x : Item) : Decidable (Concerns n x) := by unfold Concerns; split <;> infer_instance

/-- the statements about `n` among those `ExpandVar` looks at, from the smallest to the largest `Line`, no two on the same -/
structure Spec.StatementsAbout (s : Stash) (file : Str) (att val : Arg) (nolink : Bool) (n : Str) (l : List Item) : Prop where
  rising : l.Pairwise (fun a b => a.line < b.line)
  all : ∀ x, x ∈ l ↔ x ∈ s.items ∧ Concerns n x ∧
    (Selected s { filename := some file, classifier := .one c!"Variable", attname := att, attvalue := val, nolink } x ∨
      Selected s { filename := some file, classifier := .one c!"Unset" } x)

theorem stepItem_other {n : Str} {x : Item} (h : ¬ Concerns n x) (o : Option (Option Str)) : stepItem n o x = o := by
  unfold Concerns at h
  unfold stepItem
  cases hp : x.payload <;> rw [hp] at h <;> simp only at h ⊢
  · rw [if_neg (fun hh => h hh.2)]
  · rw [if_neg h]

theorem modOf_other {n : Str} {x : Item} (h : ¬ Concerns n x) : modOf n x = none := by
  unfold Concerns at h
  unfold modOf
  cases hp : x.payload <;> rw [hp] at h <;> simp only at h ⊢
  rw [if_neg (fun hh => h hh.2)]

theorem foldl_concerns (n : Str) (l : List Item) (o : Option (Option Str)) :
    l.foldl (stepItem n) o = (l.filter (fun x => decide (Concerns n x))).foldl (stepItem n) o := by
  induction l generalizing o with
  | nil => rfl
  | cons x l ih =>
    by_cases h : Concerns n x
    · rw [List.filter_cons_of_pos (by simpa using h), List.foldl_cons, List.foldl_cons, ih]
    · rw [List.filter_cons_of_neg (by simpa using h), List.foldl_cons, stepItem_other h, ih]

theorem mods_concerns (n : Str) (l : List Item) : mods n l = mods n (l.filter (fun x => decide (Concerns n x))) := by
  unfold mods
  induction l with
  | nil => rfl
  | cons x l ih =>
    by_cases h : Concerns n x
    · rw [List.filter_cons_of_pos (by simpa using h), List.filterMap_cons, List.filterMap_cons, ih]
    · rw [List.filter_cons_of_neg (by simpa using h), List.filterMap_cons, modOf_other h, ih]

theorem stepItem_same {n : Str} {x y : Item} (h : Same x y) (o : Option (Option Str)) : stepItem n o x = stepItem n o y := by
  unfold stepItem immediateOp
  rw [h.payload, h.delim, h.blocks]

theorem modOf_same {n : Str} {x y : Item} (h : Same x y) : modOf n x = modOf n y := by
  unfold modOf
  rw [h.payload, h.delim]

theorem finalDict_about {n : Str} {its its' : List Item} {d : ExpDict}
    (h : List.Forall₂ Same (its.filter (fun x => decide (Concerns n x))) (its'.filter (fun x => decide (Concerns n x)))) :
    dget n (finalDict its d) = dget n (finalDict its' d) := by
  unfold finalDict
  rw [passRemove_dget, passRemove_dget, passAppend_dget, passAppend_dget, passImmediate_dget, passImmediate_dget, mods_concerns n its,
    mods_concerns n its', foldl_concerns n its, foldl_concerns n its']
  generalize its.filter _ = l at h
  generalize its'.filter _ = l' at h
  have h1 : mods n l = mods n l' := by
    unfold mods
    induction h with
    | nil => rfl
    | cons h _ ih => rw [List.filterMap_cons, List.filterMap_cons, modOf_same h, ih]
  have h2 : ∀ o, l.foldl (stepItem n) o = l'.foldl (stepItem n) o := by
    clear h1
    induction h with
    | nil => exact fun _ => rfl
    | cons h _ ih => intro o; rw [List.foldl_cons, List.foldl_cons, stepItem_same h, ih]
  rw [h1, h2]

/-- **C111** Two stashes with the same base set hold the same statements about the variable `n`, in the same order of `Line`s, whatever else they hold.
If the text of `n` depends on names in `N` only, and the stashes agree on these (C110), and no name contains a reference, then `ExpandVar` gives the same
items for `n`, or none for both. -/
theorem C111_own_statements (W : World) (s s' : Stash) (file : Str) (att val : Arg) (nolink : Bool) (r r' : List (Str × List Str)) (b : KV)
    (h : expandVar W s (some file) att val nolink = .ok r) (h' : expandVar W s' (some file) att val nolink = .ok r')
    (hb : setsBase s.consts = .ok (.dict b)) (hb' : setsBase s'.consts = .ok (.dict b)) (hbn : b.keys.Nodup)
    (hp : PlainNames s s.items) (hp' : PlainNames s' s'.items)
    (n : Str) (l l' : List Item) (hl : StatementsAbout s file att val nolink n l) (hl' : StatementsAbout s' file att val nolink n l')
    (hsame : l.map said = l'.map said) (N : Str → Prop) (hcl : ClosedNames W s file N) (htext : ∀ u, TextOf s file n l u → DependsWithin N u)
    (hN : ∀ m, N m → m ≠ [] → (getItemsFor W s' (varFilter file m)).map said = (getItemsFor W s (varFilter file m)).map said) :
    dget n r' = dget n r := by
  obtain ⟨its, d, h1, h2, h3⟩ := expandVar_ok h
  obtain ⟨its', d', h1', h2', h3'⟩ := expandVar_ok h'
  have hd : d' = d := by
    have : expInit s' file = expInit s file := by unfold expInit; rw [hb, hb']
    rw [this, h2] at h2'
    cases h2'; rfl
  subst hd
  have e : its.filter (fun x => decide (Concerns n x)) = l := by
    refine rising_unique hl.rising (h1.sorted.filter _) (h1.nodup.filter _) fun x => ?_
    rw [List.mem_filter, h1.mem, hl.all, decide_eq_true_iff]
    tauto
  have e' : its'.filter (fun x => decide (Concerns n x)) = l' := by
    refine rising_unique hl'.rising (h1'.sorted.filter _) (h1'.nodup.filter _) fun x => ?_
    rw [List.mem_filter, h1'.mem, hl'.all, decide_eq_true_iff]
    tauto
  have hfin : dget n (finalDict its d') = dget n (finalDict its' d') := finalDict_about (by rw [e, e']; exact forall₂_of_map_eq hsame)
  have plain : ∀ {s : Stash} {its : List Item}, (∀ x ∈ its, x ∈ s.items) → PlainNames s s.items → PlainNames s its := by
    intro s its hi hp k hk
    refine hp k (hk.imp_left ?_)
    rintro ⟨x, hx, hv⟩
    exact ⟨x, hi x hx, hv⟩
  have pl := plain (fun x hx => ((h1.mem x).1 hx).1) hp
  have pl' := plain (fun x hx => ((h1'.mem x).1 hx).1) hp'
  obtain ⟨b1, hb1, hall⟩ := expInit_base h2
  rw [hb] at hb1
  cases hb1
  obtain ⟨k1, k2, k3, k4⟩ := hall hbn
  have keys : ∀ {s : Stash} {its : List Item}, setsBase s.consts = .ok (.dict b) → PlainNames s its → ∀ k ∈ (finalDict its d').map (·.1), expandTerm W s file k = .ok k := by
    intro s its hb hp k hk
    obtain ⟨h5, h6⟩ := hp k (finalDict_names hb k4 k hk)
    exact expandTerm_plain hb h5 h6
  obtain ⟨i1, i2⟩ := explode_plain h3 (finalDict_keys k1) (keys hb pl) n
  obtain ⟨j1, j2⟩ := explode_plain h3' (finalDict_keys k1) (keys hb' pl') n
  cases hv : dget n (finalDict its d') with
  | none =>
    rw [← hfin, hv] at j1
    rw [hv] at i1
    have : ∀ {o : Option (List Str)}, (o.isSome = true ↔ (none : Option (Option Str)).isSome = true) → o = none := by
      intro o ho; cases o <;> simp at ho ⊢
    rw [this i1, this j1]
  | some v =>
    obtain ⟨t, ht, hr⟩ := i2 v hv
    obtain ⟨t', ht', hr'⟩ := j2 v (by rw [← hfin, hv])
    have hx : TextOf s file n l (v.getD []) := by
      have := base_text k2 l n
      have e2 : dget n (finalDict l d') = some v := by
        rw [← hv]
        refine finalDict_about (forall₂_of_map_eq (congrArg _ ?_))
        rw [← e, List.filter_filter]
        simp
      rwa [e2] at this
    have := C110_only_referred W s s' file N (by rw [hb, hb']) hN hcl [] (v.getD []) (htext _ hx)
    unfold expandTerm at ht ht'
    rw [this, ht] at ht'
    cases ht'
    rw [hr, hr']

/-- what two versions of a file have in common -/
theorem edit_common {W : World} {g : Str → FileRes} {V : Str → Prop} {ns neg : Bool} {consts : J} (hu : UsableConstants consts)
    (hc : SetsWithin consts V) {uid uid' : Nat} {u u' : Stash} {path t t' : Str}
    (hw : FileWithin W V (abspath W.cwd path)) (hw' : FileWithin (rewritten W g) V (abspath W.cwd path))
    (ht : NoneAssigned V u) (ht' : NoneAssigned V u')
    (hf : W.file (abspath W.cwd path) = .text t) (hf' : g (abspath W.cwd path) = .text t') {ls ls' : List Str}
    (hl : IsLines (univNewlines t) ls) (hl' : IsLines (univNewlines t') ls') {a m m' b : List (List Str)}
    (hg : Groups ls (a ++ m ++ b)) (hg' : Groups ls' (a ++ m' ++ b))
    {n n' : Nat} {off off' : Int} {forced : Option Str} {r r' : List Item}
    (h : addFile W n path off forced (Stash.init ns neg consts uid) = (.ok r, u))
    (h' : addFile (rewritten W g) n' path off' forced (Stash.init ns neg consts uid') = (.ok r', u'))
    (hn : ns = true ∨ (SomeNew (r.take (a.length + m.length)) ↔ SomeNew (r'.take (a.length + m'.length))))
    (hr : ∀ x ∈ r, loadedBy x = []) (hr' : ∀ x ∈ r', loadedBy x = []) :
    (∀ x, x ∈ u.items ↔ x ∈ r) ∧ (∀ x, x ∈ u'.items ↔ x ∈ r') ∧ u'.map = u.map ∧ setsBase u'.consts = setsBase u.consts ∧
    r.Pairwise (fun a b => a.line < b.line) ∧ r'.Pairwise (fun a b => a.line < b.line) ∧
    ∀ p q : Item → Bool, (∀ x y, Same x y → p x = q y) → (∀ x ∈ (r.drop a.length).take m.length, p x = false) →
      (∀ x ∈ (r'.drop a.length).take m'.length, q x = false) → (r.filter p).map said = (r'.filter q).map said := by
  have hnew : alreadySeen (Stash.init ns neg consts uid) (abspath W.cwd path) = false := by simp [alreadySeen, Stash.init]
  have hnew' : alreadySeen (Stash.init ns neg consts uid') (abspath W.cwd path) = false := by simp [alreadySeen, Stash.init]
  obtain ⟨-, -, q3, q4⟩ := C102_edit W g V ns neg consts hu hc uid uid' (fun _ => True) (fun _ => True) _ _ u u' .nil .nil path t t' hnew hnew' hw hw' ht ht'
    hf hf' ls ls' hl hl' a m m' b hg hg' n n' off off' forced forced r r' h h'
  obtain ⟨k1, k2, k3⟩ := addFile_idle (W := W) (W' := rewritten W g) (s := Stash.init ns neg consts uid) (s' := Stash.init ns neg consts uid')
    rfl rfl rfl rfl hnew hnew' h h' hr hr'
  have hlin := (C02_lines W n path off forced _ _ r _ h hnew hf).2.1
  have hlin' := (C02_lines (rewritten W g) n' path off' forced _ _ r' _ h' hnew' hf').2.1
  have c1 : ConstsOf consts u := by
    have := addFile_constsOf_any (W := W) (db := consts) (s := Stash.init ns neg consts uid) ⟨hu, otherNames_refl _⟩ n path off forced
    rwa [h] at this
  have c2 : ConstsOf consts u' := by
    have := addFile_constsOf_any (W := rewritten W g) (db := consts) (s := Stash.init ns neg consts uid') ⟨hu, otherNames_refl _⟩ n' path off' forced
    rwa [h'] at this
  have names := constsOf_names c1 c2
  have hbase : setsBase u'.consts = setsBase u.consts := (twin_names W).sets (s' := { u with consts := u'.consts }) names
  have split : ∀ (r : List Item) (i j : Nat), r = r.take i ++ (r.drop i).take j ++ r.drop (i + j) := fun r i j => by
    rw [List.append_assoc, ← List.drop_drop, List.take_append_drop, List.take_append_drop]
  refine ⟨fun x => by rw [k1], fun x => by rw [k2], k3, hbase, hlin, hlin', fun p q hpq hp hq => ?_⟩
  have none : ∀ {p : Item → Bool} {l : List Item}, (∀ x ∈ l, p x = false) → l.filter p = [] := fun h => by
    rw [List.filter_eq_nil_iff]; intro x hx; simp [h x hx]
  have sub : ∀ {l l' : List Item}, l.map said = l'.map said → List.Forall₂ Same (l.filter p) (l'.filter q) := fun h =>
    forall₂_filter hpq (forall₂_of_map_eq h)
  have key : List.Forall₂ Same (r.filter p) (r'.filter q) := by
    rw [split r a.length m.length, split r' a.length m'.length, List.filter_append, List.filter_append, List.filter_append, List.filter_append,
      none hp, none hq, List.append_nil, List.append_nil]
    exact List.rel_append (sub (said_of_content q3)) (sub (said_of_shifted (q4 hn)))
  generalize r.filter p = k at key
  generalize r'.filter q = k' at key
  induction key with
  | nil => rfl
  | cons h _ ih => rw [List.map_cons, List.map_cons, ih, show said _ = said _ from h]

open Classical in
/-- **C111** (an edited file). Two versions of a file differ in the statements `m` and `m'` only, in the same place, and none of these is about the variable `n` or
a variable in `N`. Each version is read into a fresh stash with the same settings, and loads no other file. If the text of `n` depends on `N` only, and no name
contains a reference, `ExpandVar` gives the same items for `n`, unless the edit changes whether the new override syntax is in use by then. -/
theorem C111_edit (W : World) (g : Str → FileRes) (V : Str → Prop) (ns neg : Bool) (consts : J) (hu : UsableConstants consts)
    (hc : SetsWithin consts V) (uid uid' : Nat) (u u' : Stash) (path t t' : Str)
    (hw : FileWithin W V (abspath W.cwd path)) (hw' : FileWithin (rewritten W g) V (abspath W.cwd path))
    (ht : NoneAssigned V u) (ht' : NoneAssigned V u')
    (hf : W.file (abspath W.cwd path) = .text t) (hf' : g (abspath W.cwd path) = .text t') (ls ls' : List Str)
    (hl : IsLines (univNewlines t) ls) (hl' : IsLines (univNewlines t') ls') (a m m' b : List (List Str))
    (hg : Groups ls (a ++ m ++ b)) (hg' : Groups ls' (a ++ m' ++ b))
    (n n' : Nat) (off off' : Int) (forced : Option Str) (r r' : List Item)
    (h : addFile W n path off forced (Stash.init ns neg consts uid) = (.ok r, u))
    (h' : addFile (rewritten W g) n' path off' forced (Stash.init ns neg consts uid') = (.ok r', u'))
    (hn : ns = true ∨ (SomeNew (r.take (a.length + m.length)) ↔ SomeNew (r'.take (a.length + m'.length))))
    (hr : ∀ x ∈ r, loadedBy x = []) (hr' : ∀ x ∈ r', loadedBy x = [])
    (N : Str → Prop) (name : Str)
    (hM : ∀ x ∈ (r.drop a.length).take m.length, ¬ AboutName N x ∧ ¬ Concerns name x)
    (hM' : ∀ x ∈ (r'.drop a.length).take m'.length, ¬ AboutName N x ∧ ¬ Concerns name x)
    (D : World) (file : Str) (att val : Arg) (nolink : Bool) (e e' : List (Str × List Str)) (base : KV)
    (he : expandVar D u (some file) att val nolink = .ok e) (he' : expandVar D u' (some file) att val nolink = .ok e')
    (hb : setsBase u.consts = .ok (.dict base)) (hbn : base.keys.Nodup) (hp : PlainNames u u.items) (hp' : PlainNames u' u'.items)
    (hcl : ClosedNames D u file N) (l : List Item) (hs : StatementsAbout u file att val nolink name l)
    (htext : ∀ t, TextOf u file name l t → DependsWithin N t) :
    dget name e' = dget name e := by
  obtain ⟨k1, k2, k3, k4, k5, k6, k7⟩ := edit_common hu hc hw hw' ht ht' hf hf' hl hl' hg hg' h h' hn hr hr'
  have L : LinedNames N u (r.filter (fun x => decide (AboutName N x))) :=
    ⟨k5.filter _, fun x => by rw [List.mem_filter, k1, decide_eq_true_iff]⟩
  have L' : LinedNames N u' (r'.filter (fun x => decide (AboutName N x))) :=
    ⟨k6.filter _, fun x => by rw [List.mem_filter, k2, decide_eq_true_iff]⟩
  let f1 : Filter := { filename := some file, classifier := .one c!"Variable", attname := att, attvalue := val, nolink }
  let f2 : Filter := { filename := some file, classifier := .one c!"Unset" }
  let P : Stash → Item → Bool := fun s x => decide (Concerns name x) && (keeps s f1 x || keeps s f2 x)
  have about : ∀ (s : Stash) (r : List Item), (∀ x, x ∈ s.items ↔ x ∈ r) → r.Pairwise (fun a b => a.line < b.line) →
      StatementsAbout s file att val nolink name (r.filter (P s)) := by
    intro s r hm hp
    refine ⟨hp.filter _, fun x => ?_⟩
    rw [List.mem_filter, hm]
    simp only [P, Bool.and_eq_true, Bool.or_eq_true, decide_eq_true_iff, keeps_iff, f1, f2]
  have unique : l = r.filter (P u) := by
    have h1 := about u r k1 k5
    refine rising_unique h1.rising (hs.rising.imp (fun h => by omega)) (hs.rising.imp (fun h e => by rw [e] at h; omega)) fun x => ?_
    rw [hs.all, h1.all]
  have conc : ∀ x y, Same x y → decide (Concerns name x) = decide (Concerns name y) := fun x y hxy => decide_eq_decide.2 <| by
    unfold Concerns; rw [hxy.payload, hxy.delim]
  have PP : ∀ x y, Same x y → P u x = P u' y := fun x y hxy => by
    simp only [P]
    rw [conc x y hxy, keeps_said k3 f1 hxy, keeps_said k3 f2 hxy]
  refine C111_own_statements D u u' file att val nolink e e' base he he' hb (k4.trans hb) hbn hp hp' name l (r'.filter (P u')) hs (about u' r' k2 k6) ?_ N hcl htext ?_
  · rw [unique]
    refine k7 _ _ PP (fun x hx => ?_) (fun x hx => ?_)
    · simp only [P, decide_eq_false (hM x hx).2, Bool.false_and]
    · simp only [P, decide_eq_false (hM' x hx).2, Bool.false_and]
  · intro k hk hne
    rw [linedNames_get L D hk hne, linedNames_get L' D hk hne]
    rw [List.filter_filter, List.filter_filter]
    refine (k7 _ _ (fun x y hxy => ?_) (fun x hx => ?_) (fun x hx => ?_)).symm
    · rw [keeps_said k3 _ hxy, decide_eq_decide.2 (aboutName_said hxy)]
    · simp [(hM x hx).1]
    · simp [(hM' x hx).1]

end

/-! ## examples -/
section
attribute [local instance] Sample.asciiUni

/-- the statements about a variable, if the `Line`s rise -/
theorem Sample.statements {s : Stash} (h : s.items.Pairwise (fun a b => a.line < b.line)) (file : Str) (att val : Arg) (nolink : Bool) (n : Str) :
    StatementsAbout s file att val nolink n (s.items.filter (fun x => decide (Concerns n x) &&
      (keeps s { filename := some file, classifier := .one c!"Variable", attname := att, attvalue := val, nolink } x ||
        keeps s { filename := some file, classifier := .one c!"Unset" } x))) := by
  refine ⟨h.filter _, fun x => ?_⟩
  rw [List.mem_filter]
  simp only [Bool.and_eq_true, Bool.or_eq_true, decide_eq_true_iff, keeps_iff]

/-- no name contains a reference -/
theorem Sample.plainNames {s : Stash} (h : (s.items.all fun x => match x.payload with
      | .variable v => decide ('$' ∉ varNameCompleteNoModifiers x.delim v ∧ '(' ∉ varNameCompleteNoModifiers x.delim v)
      | _ => true) = true) (hb : setsBase s.consts = .ok J.empty) : PlainNames s s.items := by
  rintro k (⟨x, hx, v, hv, rfl⟩ | ⟨b, hb', hk⟩ | hk)
  · have := List.all_eq_true.1 h x hx
    rw [hv] at this
    simpa using this
  · rw [hb] at hb'; cases hb'; cases hk
  · simp only [List.mem_cons, List.not_mem_nil, or_false] at hk
    rcases hk with rfl | rfl | rfl <;> decide

/-- C111: the hypotheses are met, with other statements on other lines -/
example (r r' : List (Str × List Str)) (h : expandVar (Sample.world []) Sample.defs (some c!"/a/b_1.bb") .none .none false = .ok r)
    (h' : expandVar (Sample.world []) Sample.defs2 (some c!"/a/b_1.bb") .none .none false = .ok r') : dget c!"A" r' = dget c!"A" r := by
  refine C111_own_statements _ _ _ _ _ _ _ _ _ .nil h h' rfl rfl (by decide) (Sample.plainNames (by decide +kernel) rfl) (Sample.plainNames (by decide +kernel) rfl)
    c!"A" _ _ (Sample.statements (by decide +kernel) _ _ _ _ _) (Sample.statements (by decide +kernel) _ _ _ _ _) (by decide +kernel)
    (· ∈ [c!"A", c!"B", c!"U"]) (closedNames_of (Sample.closed_of (by decide +kernel)) rfl) ?_
    (by intro n hn _; simp only [List.mem_cons, List.not_mem_nil, or_false] at hn; rcases hn with rfl | rfl | rfl <;> decide +kernel)
  intro u hu
  have := textOf_unique hu ⟨none, _, .none rfl rfl (by decide), immediate_fold _ _ _, rfl⟩
  subst this
  exact dependsWithin_names (by decide +kernel) (by decide +kernel)

/-- both calls succeed, with these items for `A` -/
example : (expandVar (Sample.world []) Sample.defs (some c!"/a/b_1.bb") .none .none false).toOption.map (dget c!"A") = some (some [c!"x1${U}y"]) ∧
    (expandVar (Sample.world []) Sample.defs2 (some c!"/a/b_1.bb") .none .none false).toOption.map (dget c!"A") = some (some [c!"x1${U}y"]) := by
  decide +kernel

/-- names with references are about other variables than they seem: here `${Z}` is `A` -/
example : (expandVar (Sample.world []) { Sample.stash with items := [Sample.assign 1 c!"A" c!"1", Sample.assign 2 c!"Z" c!"A", Sample.assign 3 c!"${Z}" c!"2"] }
    (some c!"/a/b_1.bb") .none .none false).toOption.map (dget c!"A") = some (some [c!"1", c!"2"]) := by decide +kernel

/-- the base set is empty -/
theorem Sample.emptyBase {u : Stash} (h : (match setsBase u.consts with | .ok (.dict .nil) => true | _ => false) = true) : setsBase u.consts = .ok J.empty := by
  cases e : setsBase u.consts with
  | error _ => rw [e] at h; cases h
  | ok b => rw [e] at h; cases b <;> first | cases h | (rename_i d; cases d <;> first | rfl | cases h)

/-- an assignment of another variable is inserted: all hypotheses of `C111_edit` hold -/
example : ∀ r r' u u', addFile Sample.plainDisk 5 c!"/w/r.bb" 0 none (Stash.init false false Sample.constants 0) = (.ok r, u) →
    addFile (rewritten Sample.plainDisk Sample.longerFile) 5 c!"/w/r.bb" 0 none (Stash.init false false Sample.constants 9) = (.ok r', u') →
    ∀ (D : World) (e e' : List (Str × List Str)), expandVar D u (some c!"/w/r.bb") .none .none false = .ok e →
      expandVar D u' (some c!"/w/r.bb") .none .none false = .ok e' → dget c!"B" e' = dget c!"B" e := by
  intro r r' u u' h h' D e e' he he'
  have o1 : OneLine c!"A = \"1\"" := oneLine_of_chars (by decide +kernel) (by decide +kernel) (by decide +kernel)
  have o2 : OneLine c!"B = \"${A}\"" := oneLine_of_chars (by decide +kernel) (by decide +kernel) (by decide +kernel)
  have o3 : OneLine c!"Z = \"${A}${B}\"" := oneLine_of_chars (by decide +kernel) (by decide +kernel) (by decide +kernel)
  have o4 : OneLine c!"addtask x after do_y" := oneLine_of_chars (by decide +kernel) (by decide +kernel) (by decide +kernel)
  have facts : (∀ x ∈ r, loadedBy x = []) ∧ ¬ SomeNew (r.take 1) := by
    have h0 : (addFile Sample.plainDisk 5 c!"/w/r.bb" 0 none (Stash.init false false Sample.constants 0)).1.toOption.map
        (fun r => r.all (fun x => (loadedBy x).isEmpty) && (r.take 1).all (fun x => x.delim != ':')) = some true := by decide +kernel
    rw [h] at h0
    have := Option.some.inj h0
    simp only [Bool.and_eq_true, List.all_eq_true, List.isEmpty_iff, bne_iff_ne] at this
    exact ⟨this.1, fun ⟨x, hx, hx'⟩ => this.2 x hx hx'⟩
  have facts' : (∀ x ∈ r', loadedBy x = []) ∧ ¬ SomeNew (r'.take 3) ∧
      ∀ x ∈ (r'.drop 1).take 2, ¬ AboutName (· ∈ [c!"A", c!"B"]) x ∧ ¬ Concerns c!"B" x := by
    have h0 : (addFile (rewritten Sample.plainDisk Sample.longerFile) 5 c!"/w/r.bb" 0 none (Stash.init false false Sample.constants 9)).1.toOption.map
        (fun r => (r.all (fun x => (loadedBy x).isEmpty) && (r.take 3).all (fun x => x.delim != ':')) &&
          ((r.drop 1).take 2).all (fun x => !Sample.about [c!"A", c!"B"] x && !decide (Concerns c!"B" x))) = some true := by decide +kernel
    rw [h'] at h0
    have := Option.some.inj h0
    simp only [Bool.and_eq_true, List.all_eq_true, List.isEmpty_iff, bne_iff_ne, Bool.not_eq_true', decide_eq_false_iff_not] at this
    exact ⟨this.1.1, fun ⟨x, hx, hx'⟩ => this.1.2 x hx hx',
      fun x hx => ⟨fun hA => (by have := (this.2 x hx).1; rw [(Sample.about_iff _ x).2 hA] at this; cases this), (this.2 x hx).2⟩⟩
  have hb : setsBase u.consts = .ok J.empty := by
    have := Sample.emptyBase (u := (addFile Sample.plainDisk 5 c!"/w/r.bb" 0 none (Stash.init false false Sample.constants 0)).2) (by decide +kernel)
    rwa [h] at this
  have hcl : ClosedNames D u c!"/w/r.bb" (· ∈ [c!"A", c!"B"]) := by
    refine closedNames_of (Sample.closed_of ?_) hb
    have : Sample.closedCheck [c!"A", c!"B"] (addFile Sample.plainDisk 5 c!"/w/r.bb" 0 none (Stash.init false false Sample.constants 0)).2.items = true := by
      decide +kernel
    rwa [h] at this
  have hp : PlainNames u u.items := by
    have := Sample.plainNames (s := (addFile Sample.plainDisk 5 c!"/w/r.bb" 0 none (Stash.init false false Sample.constants 0)).2) (by decide +kernel)
      (Sample.emptyBase (by decide +kernel))
    rwa [h] at this
  have hp' : PlainNames u' u'.items := by
    have := Sample.plainNames (s := (addFile (rewritten Sample.plainDisk Sample.longerFile) 5 c!"/w/r.bb" 0 none (Stash.init false false Sample.constants 9)).2)
      (by decide +kernel) (Sample.emptyBase (by decide +kernel))
    rwa [h'] at this
  have hline : u.items.Pairwise (fun a b => a.line < b.line) := by
    have : (addFile Sample.plainDisk 5 c!"/w/r.bb" 0 none (Stash.init false false Sample.constants 0)).2.items.Pairwise (fun a b => a.line < b.line) := by
      decide +kernel
    rwa [h] at this
  refine C111_edit Sample.plainDisk Sample.longerFile (fun _ => False) false false Sample.constants Sample.usableConstants
    (setsWithin_none _) 0 9 u u' c!"/w/r.bb" Sample.plainText Sample.longerText
    (fileWithin_plain (Sample.plain_of (by decide +kernel)))
    (fileWithin_plain (Sample.plain_of (by decide +kernel))) (noneAssigned_none _) (noneAssigned_none _)
    (by decide +kernel) (by decide +kernel) _ _ (readlines_isLines _) (readlines_isLines _)
    [[c!"A = \"1\"\n"]] [] [[c!"Z = \"${A}${B}\"\n"], [c!"addtask x after do_y\n"]] [[c!"B = \"${A}\"\n"]]
    (.cons (Sample.singleGroup _ _ o1) (.cons (Sample.singleGroup _ _ o2) .nil))
    (.cons (Sample.singleGroup _ _ o1) (.cons (Sample.singleGroup _ _ o3) (.cons (Sample.singleGroup _ _ o4) (.cons (Sample.singleGroup _ _ o2) .nil))))
    5 5 0 0 none r r' h h' (.inr (iff_of_false facts.2 facts'.2.1)) facts.1 facts'.1 (· ∈ [c!"A", c!"B"]) c!"B" (by simp) facts'.2.2 D _ _ _ _ e e' .nil
    he he' hb (by decide) hp hp' hcl _ (Sample.statements hline _ _ _ _ _) ?_
  intro t ht
  have hu := textOf_unique ht ⟨none, _, .none hb rfl (by decide), immediate_fold _ _ _, rfl⟩
  subst hu
  have key : let s := (addFile Sample.plainDisk 5 c!"/w/r.bb" 0 none (Stash.init false false Sample.constants 0)).2
      let l := s.items.filter (fun x => decide (Concerns c!"B" x) &&
        (keeps s { filename := some c!"/w/r.bb", classifier := .one c!"Variable", attname := .none, attvalue := .none, nolink := false } x ||
          keeps s { filename := some c!"/w/r.bb", classifier := .one c!"Unset" } x))
      without (extended (startText (l.foldl (stepItem c!"B") none) (mods c!"B" l)) (mods c!"B" l)) (removes (mods c!"B" l)) = c!"${A}" := by decide +kernel
  rw [h] at key
  simp only [Option.map_none]
  rw [key]
  exact dependsWithin_names (by decide +kernel) (by decide +kernel)

end
end Oelint

import Verif.Lemmas.Unique
import Verif.Lemmas.Restore
import Verif.Lemmas.Sample
import Verif.Props.Queries
import Verif.Model.ExpandTerm
import Verif.Spec.Restore
/-! # Lists of files, and expansion for a given variable: C81, C82, C83, and more on C46 -/
set_option linter.unusedSectionVars false
namespace Oelint
open Spec

section
variable [Uni]

/-! ## C81 -/

/-- **C81** `GetLinksForFile(f)` lists exactly the other files that `f` is linked to and that have items. -/
theorem C81_links (W : World) (s : Stash) (f o : Str) :
    o ∈ getLinksForFile W s f ↔ f ≠ [] ∧ o ≠ f ∧ o ∈ links s f ∧ ∃ x ∈ s.items, x.origin = o := by
  unfold getLinksForFile
  by_cases hf : f = []
  · simp [hf]
  rw [if_neg (by simpa using hf)]
  simp only [getItemsByFile]
  rw [if_neg (by simpa using hf)]
  simp only [List.mem_map, List.mem_filter, (W.itemOrder_perm _).mem_iff, mem_dedup, bne_iff_ne, ne_eq]
  constructor
  · rintro ⟨x, ⟨⟨h1, h2⟩, h3⟩, rfl⟩
    refine ⟨hf, h3, ?_, x, h1, rfl⟩
    rcases (isLinkedTo_iff s x f false).1 h2 with h | ⟨-, fs, h4, h5⟩
    · exact absurd h h3
    · unfold links; rw [h4]; exact h5
  · rintro ⟨-, h1, h2, x, hx, rfl⟩
    refine ⟨x, ⟨⟨hx, (isLinkedTo_iff s x f false).2 (Or.inr ⟨rfl, ?_⟩)⟩, h1⟩, rfl⟩
    unfold links at h2
    cases hd : dget f s.map with
    | none => rw [hd] at h2; cases h2
    | some fs => rw [hd] at h2; exact ⟨fs, rfl, h2⟩

/-- **C81** how often a file is listed: once for each of its items -/
theorem C81_count {W : World} {newStyle negative : Bool} {consts : J} {uid : Nat} {s : Stash}
    (h : History W Call.own (Stash.init newStyle negative consts uid) s) (f o : Str) (hm : o ∈ getLinksForFile W s f) :
    (getLinksForFile W s f).count o = (s.items.filter (fun x => x.origin == o)).length := by
  have hd := history_distinct h ⟨by simp [Stash.init], by simp [Stash.init]⟩
  obtain ⟨hf, ho, hl, -⟩ := (C81_links W s f o).1 hm
  have hlink : ∀ x : Item, x.origin = o → isLinkedTo s x f false = true := by
    rintro x rfl
    unfold links at hl
    cases hd : dget f s.map with
    | none => rw [hd] at hl; cases hl
    | some fs => rw [hd] at hl; exact (isLinkedTo_iff s x f false).2 (Or.inr ⟨rfl, fs, hd, hl⟩)
  unfold getLinksForFile
  rw [if_neg (by simpa using hf)]
  simp only [getItemsByFile]
  rw [if_neg (by simpa using hf), dedup_of_nodup hd.items]
  have hp : (((W.itemOrder s.items).filter (fun x => isLinkedTo s x f false)).filter (fun x => x.origin != f)).Perm
      ((s.items.filter (fun x => isLinkedTo s x f false)).filter (fun x => x.origin != f)) :=
    ((W.itemOrder_perm _).filter _).filter _
  rw [(hp.map _).count_eq, List.count, List.countP_map, List.countP_eq_length_filter, List.filter_filter, List.filter_filter]
  congr 1
  apply List.filter_congr
  intro x _
  by_cases hx : x.origin = o
  · simp [hx, ho, hlink x hx]
  · have : (x.origin == o) = false := by simpa using hx
    show ((x.origin == o) && _ && _) = (x.origin == o)
    rw [this]; rfl

/-- the items `GetItemsFor(filename=file, classifier="Variable", attribute="VarName", attributeValue=n)` -/
theorem mem_varFilter {W : World} {s : Stash} {file n : Str} (hn : n ≠ []) {x : Item} :
    x ∈ getItemsFor W s (varFilter file n) ↔
      x ∈ s.items ∧ ∃ v, x.payload = .variable v ∧ v.varName = n ∧ (file ≠ [] → LinkedTo s file false x) := by
  rw [mem_getItemsFor]
  apply and_congr_right
  intro _
  constructor
  · intro hsel
    have hc := hsel.classifier (by simp [varFilter, given])
    have : ∃ v, x.payload = .variable v := by
      cases hp : x.payload <;> simp [varFilter, given, hp, Payload.classifier] at hc
      exact ⟨_, rfl⟩
    obtain ⟨v, hp⟩ := this
    refine ⟨v, hp, ?_, fun hf => hsel.file file rfl hf⟩
    obtain ⟨nm, h1, a, h2, h3⟩ := hsel.attr (by simp [varFilter, given])
    simp only [varFilter, given, List.cons_ne_nil, if_false, List.mem_singleton] at h1 h3
    subst h1
    rw [if_neg hn] at h3
    rw [dget_varName hp] at h2
    cases h2
    simpa using h3
  · rintro ⟨v, hp, hv, hf⟩
    refine ⟨fun fn h1 h2 => ?_, fun _ => ?_, fun _ => ?_⟩
    · cases h1; exact hf h2
    · simp [varFilter, given, hp, Payload.classifier]
    · refine ⟨c!"VarName", by simp [varFilter, given], .str v.varName, dget_varName hp, Or.inr ⟨n, ?_, by rw [hv]⟩⟩
      simp [varFilter, given, hn]

/-! ## C82 -/

/-- **C82** `GetFiles(file, pattern)` returns, sorted and without duplicates, exactly the files that match `DIR/*/pattern` for the
directory `DIR` of a file that assigns `SRC_URI` and is `file` or linked to it, or of a file linked to such a file. -/
theorem C82_files (W : World) (s : Stash) (file pattern : Str) :
    (∀ f, f ∈ getFiles W s file pattern ↔
      ∃ x v, x ∈ s.items ∧ x.payload = .variable v ∧ v.varName = c!"SRC_URI" ∧ (file ≠ [] → LinkedTo s file false x) ∧
        ∃ y ∈ s.items, (y = x ∨ (x.origin ≠ [] → LinkedTo s x.origin false y)) ∧
          f ∈ W.glob (dirname y.origin ++ c!"/*/" ++ pattern)) ∧
    (getFiles W s file pattern).Nodup ∧ Ordered (getFiles W s file pattern) := by
  refine ⟨fun f => ?_, ?_, ordered_sortBy _⟩
  · unfold getFiles
    simp only
    rw [mem_sortBy, mem_dedup, List.mem_flatten]
    constructor
    · rintro ⟨l, hl, hfl⟩
      obtain ⟨p, hp, rfl⟩ := List.mem_map.1 hl
      rw [mem_dedup, List.mem_append] at hp
      rcases hp with hp | hp
      · obtain ⟨x, hx, rfl⟩ := List.mem_map.1 hp
        obtain ⟨h1, v, h2, h3, h4⟩ := (mem_varFilter (by decide)).1 hx
        exact ⟨x, v, h1, h2, h3, h4, x, h1, Or.inl rfl, hfl⟩
      · obtain ⟨l2, hl2, hp⟩ := List.mem_flatten.1 hp
        obtain ⟨x, hx, rfl⟩ := List.mem_map.1 hl2
        obtain ⟨y, hy, rfl⟩ := List.mem_map.1 hp
        obtain ⟨h1, v, h2, h3, h4⟩ := (mem_varFilter (by decide)).1 hx
        obtain ⟨g1, g2⟩ := (mem_getItemsFor W s _ y).1 hy
        exact ⟨x, v, h1, h2, h3, h4, y, g1, Or.inr (fun hne => g2.file x.origin rfl hne), hfl⟩
    · rintro ⟨x, v, h1, h2, h3, h4, y, hy, hyx, hfl⟩
      have hx := (mem_varFilter (W := W) (s := s) (file := file) (x := x) (n := c!"SRC_URI") (by decide)).2 ⟨h1, v, h2, h3, h4⟩
      refine ⟨_, List.mem_map.2 ⟨_, ?_, rfl⟩, hfl⟩
      rw [mem_dedup, List.mem_append]
      rcases hyx with rfl | hyx
      · exact Or.inl (List.mem_map.2 ⟨_, hx, rfl⟩)
      · refine Or.inr (List.mem_flatten.2 ⟨_, List.mem_map.2 ⟨x, hx, rfl⟩, List.mem_map.2 ⟨y, ?_, rfl⟩⟩)
        refine (mem_getItemsFor W s _ y).2 ⟨hy, fun fn e hne => ?_, by simp [given], by simp [given]⟩
        cases e
        exact hyx hne
  · unfold getFiles
    exact (sortBy_perm _ _).nodup_iff.2 (nodup_dedup _)

/-! ## C46: files and the flags of items -/

/-- **C46** `GetBBClasses` returns exactly the files of the items with `IsFromClass`; `GetLoneAppends` those of items with
`IsFromAppend()` that no recipe is linked to. -/
theorem C46_item_flags (s : Stash) (f : Str) :
    (f ∈ getBBClasses s ↔ ∃ x ∈ s.items, x.isFromClass = true ∧ x.origin = f) ∧
    (f ∈ getLoneAppends s ↔ (∃ x ∈ s.items, x.isFromAppend = true ∧ x.origin = f) ∧
      ¬ ∃ r fs, (r, fs) ∈ s.map ∧ c!".bb" <:+ r ∧ f ∈ fs) := by
  have hc : ∀ x : Item, x.isFromClass = true ↔ c!".bbclass" <:+ x.origin := fun x => by
    unfold Item.isFromClass endsWith; exact List.isSuffixOf_iff_suffix
  have ha : ∀ x : Item, x.isFromAppend = true ↔ c!".bbappend" <:+ x.origin := fun x => by
    unfold Item.isFromAppend endsWith; exact List.isSuffixOf_iff_suffix
  obtain ⟨-, h2, -, h4, -⟩ := C46_file_lists (Sample.world []) s f
  rw [h2, h4]
  constructor
  · constructor
    · rintro ⟨h, x, hx, rfl⟩; exact ⟨x, hx, (hc x).2 h, rfl⟩
    · rintro ⟨x, hx, h, rfl⟩; exact ⟨(hc x).1 h, x, hx, rfl⟩
  · constructor
    · rintro ⟨h, ⟨x, hx, rfl⟩, h3⟩; exact ⟨⟨x, hx, (ha x).2 h, rfl⟩, h3⟩
    · rintro ⟨⟨x, hx, h, rfl⟩, h3⟩; exact ⟨(ha x).1 h, ⟨x, hx, rfl⟩, h3⟩

/-! ## C83 -/

/-- **C83** Without a placeholder in the value, `objref` does not matter. -/
theorem C83_no_placeholder (W : World) (s : Stash) (file : Str) (spare : List Str) (value : Str) (x : Item) (v : VarData)
    (h : ¬ placeholder <:+: value) : expandTermObj W s file spare value x v = expandTermS W s file spare value := by
  unfold expandTermObj
  rw [if_neg]
  rw [hasSub_iff]
  exact h

/-- C83 as stated: a value with placeholders is expanded with the python code of `objref` in their place -/
def Spec.ObjrefClaim (P : Str → VarData → Prop) : Prop :=
  ∀ (W : World) (s : Stash) (file : Str) (spare : List Str) (h : Str) (l : List (Str × Str)) (x : Item) (v : VarData),
    x.inlineBlocks = l.map (fun p => (blockOf p.1, placeholder)) → '!' ∉ h → (∀ p ∈ l, '!' ∉ p.1 ∧ '!' ∉ p.2) →
    P (render (fun _ => placeholder) h l) v →
    expandTermObj W s file spare (render (fun _ => placeholder) h l) x v = expandTermS W s file spare (render id h l)

/-- **C83**, partial: for the value of `objref` itself. Missing: other values, for which the code expands the value of `objref`
instead. -/
theorem C83_own_value_partial : ObjrefClaim (fun value v => varValueStripped v = value) := by
  intro W s file spare h l x v hb hh hl hv
  unfold expandTermObj
  cases l with
  | nil =>
    split
    · unfold reverseInline
      rw [hb, hv]
      simp [render]
    · simp [render]
  | cons p l =>
    rw [if_pos]
    · congr 1
      unfold reverseInline
      rw [hb, hv]
      exact restore_render (f := fun _ => placeholder) (unambiguous_mark (m := '!') (by decide) (fun p _ => ⟨"!!inlineblock!!!".toList, rfl⟩) hh hl)
    · rw [hasSub_iff]
      refine ⟨h, p.2 ++ l.flatMap (fun p => placeholder ++ p.2), ?_⟩
      show h ++ placeholder ++ _ = _
      simp only [render, List.flatMap_cons, List.append_assoc]

end

/-! ## Counterexamples and examples -/

section
attribute [local instance] Sample.asciiUni

def Sample.linkWorld : World := Sample.world [(c!"/w/r.bb", c!"require x.inc\n"), (c!"/w/x.inc", c!"A = \"1\"\nB = \"2\"\n")]

/-- "`GetLinksForFile` lists no file twice" is false: a file is listed once for each of its items. -/
theorem C81_counterexample : ¬ ∀ (W : World) (s : Stash) (f : Str), History W Call.own (Stash.init false false J.empty 0) s →
    (getLinksForFile W s f).Nodup := by
  intro h
  have := h Sample.linkWorld _ c!"/w/r.bb" ((History.nil (s := Sample.stash)).snoc 3 (.addFile c!"/w/r.bb" 0 none) trivial)
  revert this
  have : getLinksForFile Sample.linkWorld ((Call.addFile c!"/w/r.bb" 0 none).after Sample.linkWorld 3 Sample.stash) c!"/w/r.bb" =
    [c!"/w/x.inc", c!"/w/x.inc"] := by decide +kernel
  rw [this]
  decide

/-- an item of the given variable with one inline block -/
def Sample.codeItem : Item :=
  { uid := 0, line := 1, raw := [], origin := c!"/w/r.bb", inFileLine := 1, includedFrom := [], realRaw := [], delim := ':',
    inlineBlocks := [(c!"${@f()}", placeholder)], payload := .item }

def Sample.codeVar : VarData := ⟨c!"A", [], [], c!"\"" ++ placeholder ++ c!"\"", c!" = ", c!"A"⟩

/-- C83 as stated is false: the value given is replaced by the one of `objref`. -/
theorem C83_counterexample : ¬ ObjrefClaim (fun _ _ => True) := by
  intro h
  have := h (Sample.world []) Sample.stash c!"/w/r.bb" [] c!"x " [(c!"f()", [])] Sample.codeItem Sample.codeVar rfl (by decide) (by decide) trivial
  revert this
  have h1 : (match expandTermObj (Sample.world []) Sample.stash c!"/w/r.bb" [] (render (fun _ => placeholder) c!"x " [(c!"f()", [])])
      Sample.codeItem Sample.codeVar with | .ok t => t | .error _ => []) = c!"${@f()}" := by decide +kernel
  have h2 : (match expandTermS (Sample.world []) Sample.stash c!"/w/r.bb" [] (render id c!"x " [(c!"f()", [])])
      with | .ok t => t | .error _ => []) = c!"x ${@f()}" := by decide +kernel
  intro e
  rw [e, h2] at h1
  revert h1
  decide

/-- the hypotheses of C83 are met by the value of the variable itself -/
example : varValueStripped Sample.codeVar = render (fun _ => placeholder) [] [(c!"f()", [])] ∧
    Sample.codeItem.inlineBlocks = [(c!"f()", [])].map (fun p : Str × Str => (blockOf p.1, placeholder)) := by decide +kernel

def Sample.globWorld : World :=
  { Sample.world [(c!"/w/r.bb", c!"SRC_URI = \"file://a.patch\"\nrequire x.inc\n"), (c!"/w/x.inc", c!"A = \"1\"\n")] with
    glob := fun p => if p = c!"/w/*/*.patch" then [c!"/w/files/b.patch", c!"/w/files/a.patch"] else [] }

example : getFiles Sample.globWorld ((Call.addFile c!"/w/r.bb" 0 none).after Sample.globWorld 3 Sample.stash) c!"/w/r.bb" c!"*.patch" =
    [c!"/w/files/a.patch", c!"/w/files/b.patch"] := by decide +kernel

end
end Oelint
